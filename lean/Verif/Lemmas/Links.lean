import Verif.Model.Links
import Verif.Lemmas.MapOrder

/-!
# The store of linked elements and the tree of the model `Verif.Model.Map`

`Zip h m p t`: in the store `h`, the map `m` consists of the subtree `t` at the position with the ancestors
`p`. The payload of a tree node is the address of the element.
-/

namespace Verif.Links

open Verif.Map (Tree Path Frame Dir plug plug1)

variable {κ : Type}

/-- The pointer to a subtree. -/
def ptr : Tree κ Addr → Option Addr
  | .nil => none
  | .node _ _ _ a _ => some a

@[simp] theorem ptr_nil : ptr (.nil : Tree κ Addr) = none := rfl
@[simp] theorem ptr_node (b : Int) (l : Tree κ Addr) (k : κ) (a : Addr) (r : Tree κ Addr) :
    ptr (.node b l k a r) = some a := rfl

/-- The `superNode` pointer of a position. -/
def supOf : Path κ Addr → Option Addr
  | [] => none
  | f :: _ => some f.val

@[simp] theorem supOf_nil : supOf ([] : Path κ Addr) = none := rfl
@[simp] theorem supOf_cons (f : Frame κ Addr) (p : Path κ Addr) : supOf (f :: p) = some f.val := rfl

/-- Addresses of a tree. -/
def addrs : Tree κ Addr → List Addr
  | .nil => []
  | .node _ l _ a r => addrs l ++ a :: addrs r

/-- Addresses of the ancestors of a position and their other subtrees. -/
def paddrs : Path κ Addr → List Addr
  | [] => []
  | f :: p => f.val :: (addrs f.sibling ++ paddrs p)

/-- The objects of a subtree. -/
def Rep (N : Addr → Option (Node κ)) (m : MapId) : Option Addr → Tree κ Addr → Prop
  | _, .nil => True
  | s, .node b l k a r =>
      N a = some ⟨s, ptr l, ptr r, some m, b, k⟩ ∧ Rep N m (some a) l ∧ Rep N m (some a) r

/-- The object of an ancestor whose subnode on the side of the position is `c`. -/
def frameNode (m : MapId) (f : Frame κ Addr) (s c : Option Addr) : Node κ :=
  match f.dir with
  | .L => ⟨s, c, ptr f.sibling, some m, f.balance, f.key⟩
  | .R => ⟨s, ptr f.sibling, c, some m, f.balance, f.key⟩

/-- The objects of the ancestors of a position and their other subtrees; `c` is the pointer to the position. -/
def RepP (N : Addr → Option (Node κ)) (m : MapId) (root : Option Addr) : Path κ Addr → Option Addr → Prop
  | [], c => root = c
  | f :: p, c =>
      N f.val = some (frameNode m f (supOf p) c) ∧ Rep N m (some f.val) f.sibling ∧
        RepP N m root p (some f.val)

/-- The map `m` in the store `h` is the tree `plug p t`, without sharing. -/
structure Zip (h : Store κ) (m : MapId) (p : Path κ Addr) (t : Tree κ Addr) : Prop where
  path : RepP h.node m (h.root m) p (ptr t)
  tree : Rep h.node m (supOf p) t
  nodup : (addrs t ++ paddrs p).Nodup

/-- Only the objects in `S` and the root of `m` differ. -/
structure Same (m : MapId) (S : List Addr) (h h' : Store κ) : Prop where
  node : ∀ a, a ∉ S → h'.node a = h.node a
  root : ∀ x, x ≠ m → h'.root x = h.root x

theorem Same.refl (m : MapId) (S : List Addr) (h : Store κ) : Same m S h h :=
  ⟨fun _ _ => rfl, fun _ _ => rfl⟩

theorem Same.trans {m : MapId} {S : List Addr} {h h' h'' : Store κ} (a : Same m S h h')
    (b : Same m S h' h'') : Same m S h h'' :=
  ⟨fun x hx => (b.node x hx).trans (a.node x hx), fun x hx => (b.root x hx).trans (a.root x hx)⟩

theorem Same.mono {m : MapId} {S T : List Addr} {h h' : Store κ} (a : Same m S h h')
    (hs : ∀ x ∈ S, x ∈ T) : Same m T h h' :=
  ⟨fun x hx => a.node x fun hy => hx (hs x hy), a.root⟩

theorem addrs_toList (t : Tree κ Addr) : addrs t = (Map.toList t).map Prod.snd := by
  induction t with
  | nil => rfl
  | node b l k v r ihl ihr => simp [addrs, Map.toList, ihl, ihr]

theorem mem_addrs_plug1 (f : Frame κ Addr) (t : Tree κ Addr) (x : Addr) :
    x ∈ addrs (plug1 f t) ↔ x ∈ addrs t ∨ x = f.val ∨ x ∈ addrs f.sibling := by
  unfold plug1; split <;> simp [addrs] <;> grind

theorem mem_addrs_plug (p : Path κ Addr) (t : Tree κ Addr) (x : Addr) :
    x ∈ addrs (plug p t) ↔ x ∈ addrs t ∨ x ∈ paddrs p := by
  induction p generalizing t with
  | nil => simp [plug, paddrs]
  | cons f p ih => simp only [plug, ih, mem_addrs_plug1, paddrs, List.mem_cons, List.mem_append]; grind

theorem ptr_plug1 (f : Frame κ Addr) (t : Tree κ Addr) : ptr (plug1 f t) = some f.val := by
  unfold plug1; split <;> rfl

theorem ptr_mem {t : Tree κ Addr} {a : Addr} (h : ptr t = some a) : a ∈ addrs t := by
  cases t with
  | nil => simp [ptr] at h
  | node b l k v r => simp [ptr] at h; simp [addrs, h]

theorem zip_step (h : Store κ) (m : MapId) (f : Frame κ Addr) (p : Path κ Addr) (t : Tree κ Addr) :
    Zip h m (f :: p) t ↔ Zip h m p (plug1 f t) := by
  obtain ⟨d, b, k, v, s⟩ := f
  constructor
  · rintro ⟨⟨h1, h2, h3⟩, h4, h5⟩
    cases d
    · refine ⟨h3, ⟨h1, h4, h2⟩, ?_⟩
      simp only [paddrs, addrs, plug1, List.nodup_append, List.nodup_cons, List.mem_cons, List.mem_append] at h5 ⊢
      grind
    · refine ⟨h3, ⟨h1, h2, h4⟩, ?_⟩
      simp only [paddrs, addrs, plug1, List.nodup_append, List.nodup_cons, List.mem_cons, List.mem_append] at h5 ⊢
      grind
  · rintro ⟨h3, h4, h5⟩
    rw [ptr_plug1] at h3
    cases d
    · obtain ⟨h1, h4, h2⟩ := h4
      refine ⟨⟨h1, h2, h3⟩, h4, ?_⟩
      simp only [paddrs, addrs, plug1, List.nodup_append, List.nodup_cons, List.mem_cons, List.mem_append] at h5 ⊢
      grind
    · obtain ⟨h1, h4, h2⟩ := h4
      refine ⟨⟨h1, h4, h3⟩, h2, ?_⟩
      simp only [paddrs, addrs, plug1, List.nodup_append, List.nodup_cons, List.mem_cons, List.mem_append] at h5 ⊢
      grind

theorem zip_plug (h : Store κ) (m : MapId) (p : Path κ Addr) (t : Tree κ Addr) :
    Zip h m p t ↔ Zip h m [] (plug p t) := by
  induction p generalizing t with
  | nil => rfl
  | cons f p ih => rw [zip_step, ih]; rfl

theorem Rep.congr {N N' : Addr → Option (Node κ)} {m : MapId} {s : Option Addr} {t : Tree κ Addr}
    (h : Rep N m s t) (e : ∀ a ∈ addrs t, N' a = N a) : Rep N' m s t := by
  induction t generalizing s with
  | nil => trivial
  | node b l k v r ihl ihr =>
    obtain ⟨h1, h2, h3⟩ := h
    refine ⟨by rw [e v (by simp [addrs]), h1], ihl h2 fun a ha => e a (by simp [addrs, ha]),
      ihr h3 fun a ha => e a (by simp [addrs, ha])⟩

/-- Only the `superNode` of the root of a subtree changes. -/
theorem Rep.reparent {N N' : Addr → Option (Node κ)} {m : MapId} {s s' : Option Addr} {t : Tree κ Addr}
    (h : Rep N m s t) (hn : (addrs t).Nodup)
    (e1 : ∀ a, ptr t = some a → N' a = (N a).map fun n => { n with super := s' })
    (e : ∀ a ∈ addrs t, ptr t ≠ some a → N' a = N a) : Rep N' m s' t := by
  cases t with
  | nil => trivial
  | node b l k v r =>
    obtain ⟨h1, h2, h3⟩ := h
    simp only [addrs, List.nodup_append, List.nodup_cons, List.mem_cons, ptr, ne_eq, Option.some.injEq,
      List.mem_append] at hn e1 e
    refine ⟨by rw [e1 v rfl, h1]; rfl, h2.congr fun a ha => e a (by simp [ha]) ?_,
      h3.congr fun a ha => e a (by simp [ha]) ?_⟩
    · rintro rfl; exact hn.2.2 v ha v (by simp) rfl
    · rintro rfl; exact hn.2.1.1 ha

theorem RepP.congr {N N' : Addr → Option (Node κ)} {m : MapId} {root : Option Addr} {p : Path κ Addr}
    {c : Option Addr} (h : RepP N m root p c) (e : ∀ a ∈ paddrs p, N' a = N a) : RepP N' m root p c := by
  induction p generalizing c with
  | nil => exact h
  | cons f p ih =>
    obtain ⟨h1, h2, h3⟩ := h
    refine ⟨by rw [e f.val (by simp [paddrs]), h1], h2.congr fun a ha => e a (by simp [paddrs, ha]),
      ih h3 fun a ha => e a (by simp [paddrs, ha])⟩

theorem RepP.root_mem {N : Addr → Option (Node κ)} {m : MapId} {root : Option Addr} {f : Frame κ Addr}
    {p : Path κ Addr} {c : Option Addr} (h : RepP N m root (f :: p) c) :
    ∃ x ∈ paddrs (f :: p), root = some x := by
  induction p generalizing f c with
  | nil => exact ⟨f.val, by simp [paddrs], h.2.2⟩
  | cons g p ih =>
    obtain ⟨x, hx, e⟩ := ih h.2.2
    exact ⟨x, by rw [paddrs]; simp [hx], e⟩

@[simp] theorem get_eq {h : Store κ} {a : Addr} {n : Node κ} (e : h.node a = some n) : h.get a = .ok n := by
  simp [Store.get, e]

theorem mod_eq {h : Store κ} {a : Addr} {n : Node κ} (e : h.node a = some n) (f : Node κ → Node κ) :
    h.mod a f = .ok { h with node := fun x => if x = a then some (f n) else h.node x } := by
  simp [Store.mod, e]

theorem mod_spec {h : Store κ} {a : Addr} {n : Node κ} (e : h.node a = some n) (f : Node κ → Node κ) :
    ∃ h', h.mod a f = .ok h' ∧ h'.node a = some (f n) ∧ (∀ x, x ≠ a → h'.node x = h.node x) ∧
      h'.root = h.root := by
  rw [mod_eq e]
  exact ⟨_, rfl, by simp, fun x hx => by simp [hx], rfl⟩

/-- `takeTop` moves the position to another element. -/
theorem takeTop_spec {h : Store κ} {m : MapId} {p : Path κ Addr} {a b : Addr} {na nb : Node κ}
    (hp : RepP h.node m (h.root m) p (some a)) (ha : h.node a = some na) (hs : na.super = supOf p)
    (hb : h.node b = some nb) (h1 : a ∉ paddrs p) (h2 : b ∉ paddrs p) (hn : (paddrs p).Nodup) :
    ∃ h', takeTop m a b h = .ok h' ∧ RepP h'.node m (h'.root m) p (some b) ∧
      h'.node b = some { nb with super := supOf p } ∧ Same m (b :: paddrs p) h h' := by
  cases p with
  | nil =>
    have hr : h.root m = some a := hp
    unfold takeTop
    rw [if_neg (by simp [hr]), mod_eq (n := nb) (by simpa [Store.setRoot] using hb)]
    refine ⟨_, rfl, by simp [RepP, Store.setRoot], by simp [supOf], ⟨?_, ?_⟩⟩
    · intro x hx; simp [paddrs] at hx; simp [Store.setRoot, hx]
    · intro x hx; simp [Store.setRoot, hx]
  | cons f p =>
    obtain ⟨x, hx, hr⟩ := hp.root_mem
    obtain ⟨d, fb, k, v, s⟩ := f
    obtain ⟨e1, e2, e3⟩ := hp
    have hbv : b ≠ v := by rintro rfl; simp [paddrs] at h2
    have hav : a ≠ v := by rintro rfl; simp [paddrs] at h1
    have hsa : ptr s ≠ some a := by
      intro e; exact h1 (by simp [paddrs, ptr_mem e])
    simp only [paddrs, List.nodup_cons, List.nodup_append, List.mem_append, not_or] at hn
    unfold takeTop
    rw [if_pos (by rw [hr]; rintro ⟨⟩; exact h1 hx)]
    simp only [get_eq ha, hs, supOf, deref, Out.ok_bind, replaceSubnode, get_eq e1]
    cases d
    · simp only [frameNode, if_true, mod_eq e1, Out.ok_bind]
      rw [mod_eq (n := nb) (by simp [hbv, hb])]
      refine ⟨_, rfl, ⟨by simp [hbv.symm, frameNode], e2.congr ?_, e3.congr ?_⟩, by simp, ⟨?_, fun _ _ => rfl⟩⟩
      · intro y hy
        have : y ≠ v := by rintro rfl; exact hn.1.1 hy
        have : y ≠ b := by rintro rfl; exact h2 (by simp [paddrs, hy])
        simp [*]
      · intro y hy
        have : y ≠ v := by rintro rfl; exact hn.1.2 hy
        have : y ≠ b := by rintro rfl; exact h2 (by simp [paddrs, hy])
        simp [*]
      · intro y hy
        simp only [paddrs, List.mem_cons, not_or] at hy
        simp [hy]
    · simp only [frameNode, hsa, if_false, mod_eq e1, Out.ok_bind]
      rw [mod_eq (n := nb) (by simp [hbv, hb])]
      refine ⟨_, rfl, ⟨by simp [hbv.symm, frameNode], e2.congr ?_, e3.congr ?_⟩, by simp, ⟨?_, fun _ _ => rfl⟩⟩
      · intro y hy
        have : y ≠ v := by rintro rfl; exact hn.1.1 hy
        have : y ≠ b := by rintro rfl; exact h2 (by simp [paddrs, hy])
        simp [*]
      · intro y hy
        have : y ≠ v := by rintro rfl; exact hn.1.2 hy
        have : y ≠ b := by rintro rfl; exact h2 (by simp [paddrs, hy])
        simp [*]
      · intro y hy
        simp only [paddrs, List.mem_cons, not_or] at hy
        simp [hy]

/-- `setSuper` re-parents a subtree. -/
theorem setSuper_spec {h : Store κ} {m : MapId} {s : Option Addr} {t : Tree κ Addr} (s' : Option Addr)
    (ht : Rep h.node m s t) (hn : (addrs t).Nodup) :
    ∃ h', setSuper (ptr t) s' h = .ok h' ∧ Rep h'.node m s' t ∧ (∀ x, x ∉ addrs t → h'.node x = h.node x) ∧
      h'.root = h.root := by
  cases t with
  | nil => exact ⟨h, rfl, trivial, fun _ _ => rfl, rfl⟩
  | node b l k v r =>
    have h0 := ht
    obtain ⟨h1, h2, h3⟩ := ht
    simp only [ptr_node, setSuper, mod_eq h1]
    refine ⟨_, rfl, h0.reparent hn ?_ ?_, ?_, rfl⟩
    · intro a ha
      simp only [ptr_node, Option.some.injEq] at ha
      subst ha
      simp [h1]
    · intro a _ ha
      have : a ≠ v := by rintro rfl; exact ha rfl
      simp [this]
    · intro x hx
      have : x ≠ v := by rintro rfl; simp [addrs] at hx
      simp [this]

theorem rotateLeft_spec {h : Store κ} {m : MapId} {p : Path κ Addr} {b rb : Int} {l rl rr : Tree κ Addr}
    {k rk : κ} {v rv : Addr} (z : Zip h m p (.node b l k v (.node rb rl rk rv rr))) :
    ∃ h', rotateLeft m v h = .ok (rv, h') ∧
      Zip h' m p (.node (rb - 1) (.node (-(rb - 1)) l k v rl) rk rv rr) ∧
      Same m (addrs (.node b l k v (.node rb rl rk rv rr)) ++ paddrs p) h h' := by
  obtain ⟨zp, ⟨e1, e2, e3, e4, e5⟩, zn⟩ := z
  have zn' := zn
  simp only [addrs, List.nodup_append, List.nodup_cons, List.mem_cons, List.mem_append, not_or, or_imp,
    forall_and, forall_eq] at zn
  obtain ⟨h1, f1, f2, f3, f4⟩ := takeTop_spec (b := rv) zp e1 rfl e3 (by grind) (by grind) (by grind)
  have g1 : h1.node v = h.node v := f4.node _ (by simp; grind)
  have grl : Rep h1.node m (some rv) rl := e4.congr fun a ha => f4.node _ (by simp; grind)
  obtain ⟨h2, i1, i2, i3, i4⟩ := setSuper_spec (some v) grl (by grind)
  have g2 : h2.node v = h.node v := by rw [i3 _ (by grind), g1]
  have g3 : h2.node rv = h1.node rv := i3 _ (by grind)
  rw [e1] at g2
  rw [f3] at g3
  have hne : v ≠ rv := by grind
  simp only [rotateLeft, get_eq e1, ptr_node, deref, Out.ok_bind, f1, get_eq f3, i1]
  simp only [Store.mod, g2, g3, Store.get, Out.ok_bind, hne, hne.symm, if_true, if_false, Out.pure_eq]
  refine ⟨_, rfl, ⟨?_, ?_, ?_⟩, ⟨?_, ?_⟩⟩
  · simp only [ptr_node, i4]
    refine f2.congr fun a ha => ?_
    have : a ≠ v := by grind
    have : a ≠ rv := by grind
    simp only [*, if_false]
    exact i3 _ (by grind)
  · refine ⟨by simp [hne.symm], ⟨by simp [hne], e2.congr ?_, i2.congr ?_⟩, e5.congr ?_⟩
    · intro a ha
      have : a ≠ v := by grind
      have : a ≠ rv := by grind
      simp only [*, if_false]
      rw [i3 _ (by grind), f4.node _ (by simp; grind)]
    · intro a ha
      have : a ≠ v := by grind
      have : a ≠ rv := by grind
      simp only [*, if_false]
    · intro a ha
      have : a ≠ v := by grind
      have : a ≠ rv := by grind
      simp only [*, if_false]
      rw [i3 _ (by grind), f4.node _ (by simp; grind)]
  · simpa [addrs] using zn'
  · intro a ha
    simp only [addrs, List.mem_append, List.mem_cons, not_or] at ha
    have : a ≠ v := by grind
    have : a ≠ rv := by grind
    simp only [*, if_false]
    rw [i3 _ (by grind), f4.node _ (by simp; grind)]
  · intro x hx
    simp only [i4]
    exact f4.root x hx

theorem rotateRight_spec {h : Store κ} {m : MapId} {p : Path κ Addr} {b rb : Int} {l rl rr : Tree κ Addr}
    {k rk : κ} {v rv : Addr} (z : Zip h m p (.node b (.node rb rr rk rv rl) k v l)) :
    ∃ h', rotateRight m v h = .ok (rv, h') ∧
      Zip h' m p (.node (rb + 1) rr rk rv (.node (-(rb + 1)) rl k v l)) ∧
      Same m (addrs (.node b (.node rb rr rk rv rl) k v l) ++ paddrs p) h h' := by
  obtain ⟨zp, ⟨e1, ⟨e3, e5, e4⟩, e2⟩, zn⟩ := z
  have zn' := zn
  simp only [addrs, List.nodup_append, List.nodup_cons, List.mem_cons, List.mem_append, not_or, or_imp,
    forall_and, forall_eq] at zn
  obtain ⟨h1, f1, f2, f3, f4⟩ := takeTop_spec (b := rv) zp e1 rfl e3 (by grind) (by grind) (by grind)
  have g1 : h1.node v = h.node v := f4.node _ (by simp; grind)
  have grl : Rep h1.node m (some rv) rl := e4.congr fun a ha => f4.node _ (by simp; grind)
  obtain ⟨h2, i1, i2, i3, i4⟩ := setSuper_spec (some v) grl (by grind)
  have g2 : h2.node v = h.node v := by rw [i3 _ (by grind), g1]
  have g3 : h2.node rv = h1.node rv := i3 _ (by grind)
  rw [e1] at g2
  rw [f3] at g3
  have hne : v ≠ rv := by grind
  simp only [rotateRight, get_eq e1, ptr_node, deref, Out.ok_bind, f1, get_eq f3, i1]
  simp only [Store.mod, g2, g3, Store.get, Out.ok_bind, hne, hne.symm, if_true, if_false, Out.pure_eq]
  refine ⟨_, rfl, ⟨?_, ?_, ?_⟩, ⟨?_, ?_⟩⟩
  · simp only [ptr_node, i4]
    refine f2.congr fun a ha => ?_
    have : a ≠ v := by grind
    have : a ≠ rv := by grind
    simp only [*, if_false]
    exact i3 _ (by grind)
  · refine ⟨by simp [hne.symm], e5.congr ?_, by simp [hne], i2.congr ?_, e2.congr ?_⟩
    · intro a ha
      have : a ≠ v := by grind
      have : a ≠ rv := by grind
      simp only [*, if_false]
      rw [i3 _ (by grind), f4.node _ (by simp; grind)]
    · intro a ha
      have : a ≠ v := by grind
      have : a ≠ rv := by grind
      simp only [*, if_false]
    · intro a ha
      have : a ≠ v := by grind
      have : a ≠ rv := by grind
      simp only [*, if_false]
      rw [i3 _ (by grind), f4.node _ (by simp; grind)]
  · simpa [addrs] using zn'
  · intro a ha
    simp only [addrs, List.mem_append, List.mem_cons, not_or] at ha
    have : a ≠ v := by grind
    have : a ≠ rv := by grind
    simp only [*, if_false]
    rw [i3 _ (by grind), f4.node _ (by simp; grind)]
  · intro x hx
    simp only [i4]
    exact f4.root x hx

theorem zigZagLeft_spec {h : Store κ} {m : MapId} {p : Path κ Addr} {b rb tb : Int}
    {l rr tl tr : Tree κ Addr} {k rk tk : κ} {v rv tv : Addr}
    (z : Zip h m p (.node b l k v (.node rb (.node tb tl tk tv tr) rk rv rr))) :
    ∃ h', zigZagLeft m v h = .ok (tv, h') ∧
      Zip h' m p (.node 0 (.node (-(max tb 0)) l k v tl) tk tv (.node (-(min tb 0)) tr rk rv rr)) ∧
      Same m (addrs (.node b l k v (.node rb (.node tb tl tk tv tr) rk rv rr)) ++ paddrs p) h h' := by
  obtain ⟨zp, ⟨e1, e2, e3, ⟨e4, e5, e6⟩, e7⟩, zn⟩ := z
  have zn' := zn
  simp only [addrs, List.nodup_append, List.nodup_cons, List.mem_cons, List.mem_append, not_or, or_imp,
    forall_and, forall_eq] at zn
  obtain ⟨h1, f1, f2, f3, f4⟩ := takeTop_spec (b := tv) zp e1 rfl e4 (by grind) (by grind) (by grind)
  have n1 : v ≠ rv := by grind
  have n2 : v ≠ tv := by grind
  have n3 : rv ≠ tv := by grind
  have g1 : h1.node v = h.node v := f4.node _ (by simp; grind)
  have g2 : h1.node rv = h.node rv := f4.node _ (by simp; grind)
  have gtl : Rep h1.node m (some tv) tl := e5.congr fun a ha => f4.node _ (by simp; grind)
  obtain ⟨h2, i1, i2, i3, i4⟩ := setSuper_spec (some v) gtl (by grind)
  have j1 : h2.node v = h.node v := by rw [i3 _ (by grind), g1]
  have j2 : h2.node rv = h.node rv := by rw [i3 _ (by grind), g2]
  have j3 : h2.node tv = h1.node tv := i3 _ (by grind)
  rw [e1] at j1
  rw [e3] at j2
  rw [f3] at j3
  simp only [zigZagLeft, get_eq e1, get_eq e3, ptr_node, deref, Out.ok_bind, f1, get_eq f3, i1]
  obtain ⟨h3, k0, k1, k2, k3⟩ := mod_spec j1 fun n => { n with right := ptr tl }
  have kt : h3.node tv = h2.node tv := k2 _ n2.symm
  have kr : h3.node rv = h2.node rv := k2 _ n1.symm
  rw [j3] at kt
  rw [j2] at kr
  have gtr : Rep h3.node m (some tv) tr := e6.congr fun a ha => by
    rw [k2 _ (by grind), i3 _ (by grind), f4.node _ (by simp; grind)]
  obtain ⟨h4, q1, q2, q3, q4⟩ := setSuper_spec (some rv) gtr (by grind)
  have r1 : h4.node v = h3.node v := q3 _ (by grind)
  have r2 : h4.node rv = h3.node rv := q3 _ (by grind)
  have r3 : h4.node tv = h3.node tv := q3 _ (by grind)
  rw [k1] at r1
  rw [kr] at r2
  rw [kt] at r3
  simp only [k0, get_eq kt, Out.ok_bind, q1]
  simp only [Store.mod, r1, r2, r3, Store.get, Out.ok_bind, n1, n1.symm, n2, n2.symm, n3, n3.symm, if_true,
    if_false, Out.pure_eq]
  have fin : ∀ a, a ≠ v → a ≠ rv → a ∉ tv :: paddrs p → a ∉ addrs tl → a ∉ addrs tr → h4.node a = h.node a := by
    intro a a1 a2 a3 a4 a5
    rw [q3 _ a5, k2 _ a1, i3 _ a4, f4.node _ a3]
  refine ⟨_, rfl, ⟨?_, ?_, ?_⟩, ⟨?_, ?_⟩⟩
  · simp only [ptr_node, q4, k3, i4]
    refine f2.congr fun a ha => ?_
    have : a ≠ v := by grind
    have : a ≠ rv := by grind
    have : a ≠ tv := by grind
    simp only [*, if_false]
    rw [q3 _ (by grind), k2 _ (by grind), i3 _ (by grind)]
  · refine ⟨by simp, ⟨by simp [n1, n2], e2.congr ?_, i2.congr ?_⟩, by simp [n1.symm, n3], q2.congr ?_, e7.congr ?_⟩
    · intro a ha
      have : a ≠ v := by grind
      have : a ≠ rv := by grind
      have : a ≠ tv := by grind
      simp only [*, if_false]
      exact fin a (by grind) (by grind) (by simp; grind) (by grind) (by grind)
    · intro a ha
      have : a ≠ v := by grind
      have : a ≠ rv := by grind
      have : a ≠ tv := by grind
      simp only [*, if_false]
      rw [q3 _ (by grind), k2 _ (by grind)]
    · intro a ha
      have : a ≠ v := by grind
      have : a ≠ rv := by grind
      have : a ≠ tv := by grind
      simp only [*, if_false]
    · intro a ha
      have : a ≠ v := by grind
      have : a ≠ rv := by grind
      have : a ≠ tv := by grind
      simp only [*, if_false]
      exact fin a (by grind) (by grind) (by simp; grind) (by grind) (by grind)
  · simpa [addrs] using zn'
  · intro a ha
    simp only [addrs, List.mem_append, List.mem_cons, not_or] at ha
    have : a ≠ v := by grind
    have : a ≠ rv := by grind
    have : a ≠ tv := by grind
    simp only [*, if_false]
    exact fin a (by grind) (by grind) (by simp; grind) (by grind) (by grind)
  · intro x hx
    simp only [q4, k3, i4]
    exact f4.root x hx

theorem zigZagRight_spec {h : Store κ} {m : MapId} {p : Path κ Addr} {b lb tb : Int}
    {r ll tl tr : Tree κ Addr} {k lk tk : κ} {v lv tv : Addr}
    (z : Zip h m p (.node b (.node lb ll lk lv (.node tb tl tk tv tr)) k v r)) :
    ∃ h', zigZagRight m v h = .ok (tv, h') ∧
      Zip h' m p (.node 0 (.node (-(max tb 0)) ll lk lv tl) tk tv (.node (-(min tb 0)) tr k v r)) ∧
      Same m (addrs (.node b (.node lb ll lk lv (.node tb tl tk tv tr)) k v r) ++ paddrs p) h h' := by
  obtain ⟨zp, ⟨e1, ⟨e3, e7, e4, e5, e6⟩, e2⟩, zn⟩ := z
  have zn' := zn
  simp only [addrs, List.nodup_append, List.nodup_cons, List.mem_cons, List.mem_append, not_or, or_imp,
    forall_and, forall_eq] at zn
  obtain ⟨h1, f1, f2, f3, f4⟩ := takeTop_spec (b := tv) zp e1 rfl e4 (by grind) (by grind) (by grind)
  have n1 : v ≠ lv := by grind
  have n2 : v ≠ tv := by grind
  have n3 : lv ≠ tv := by grind
  have g1 : h1.node v = h.node v := f4.node _ (by simp; grind)
  have g2 : h1.node lv = h.node lv := f4.node _ (by simp; grind)
  have gtl : Rep h1.node m (some tv) tl := e5.congr fun a ha => f4.node _ (by simp; grind)
  obtain ⟨h2, i1, i2, i3, i4⟩ := setSuper_spec (some lv) gtl (by grind)
  have j1 : h2.node v = h.node v := by rw [i3 _ (by grind), g1]
  have j2 : h2.node lv = h.node lv := by rw [i3 _ (by grind), g2]
  have j3 : h2.node tv = h1.node tv := i3 _ (by grind)
  rw [e1] at j1
  rw [e3] at j2
  rw [f3] at j3
  simp only [zigZagRight, get_eq e1, get_eq e3, ptr_node, deref, Out.ok_bind, f1, get_eq f3, i1]
  obtain ⟨h3, k0, k1, k2, k3⟩ := mod_spec j2 fun n => { n with right := ptr tl }
  have kt : h3.node tv = h2.node tv := k2 _ n3.symm
  have kr : h3.node v = h2.node v := k2 _ n1
  rw [j3] at kt
  rw [j1] at kr
  have gtr : Rep h3.node m (some tv) tr := e6.congr fun a ha => by
    rw [k2 _ (by grind), i3 _ (by grind), f4.node _ (by simp; grind)]
  obtain ⟨h4, q1, q2, q3, q4⟩ := setSuper_spec (some v) gtr (by grind)
  have r1 : h4.node lv = h3.node lv := q3 _ (by grind)
  have r2 : h4.node v = h3.node v := q3 _ (by grind)
  have r3 : h4.node tv = h3.node tv := q3 _ (by grind)
  rw [k1] at r1
  rw [kr] at r2
  rw [kt] at r3
  simp only [k0, get_eq kt, Out.ok_bind, q1]
  simp only [Store.mod, r1, r2, r3, Store.get, Out.ok_bind, n1, n1.symm, n2, n2.symm, n3, n3.symm, if_true,
    if_false, Out.pure_eq]
  have fin : ∀ a, a ≠ v → a ≠ lv → a ∉ tv :: paddrs p → a ∉ addrs tl → a ∉ addrs tr → h4.node a = h.node a := by
    intro a a1 a2 a3 a4 a5
    rw [q3 _ a5, k2 _ a2, i3 _ a4, f4.node _ a3]
  refine ⟨_, rfl, ⟨?_, ?_, ?_⟩, ⟨?_, ?_⟩⟩
  · simp only [ptr_node, q4, k3, i4]
    refine f2.congr fun a ha => ?_
    have : a ≠ v := by grind
    have : a ≠ lv := by grind
    have : a ≠ tv := by grind
    simp only [*, if_false]
    rw [q3 _ (by grind), k2 _ (by grind), i3 _ (by grind)]
  · refine ⟨by simp, ⟨by simp [n1.symm, n3], e7.congr ?_, i2.congr ?_⟩, by simp [n1, n2], q2.congr ?_, e2.congr ?_⟩
    · intro a ha
      have : a ≠ v := by grind
      have : a ≠ lv := by grind
      have : a ≠ tv := by grind
      simp only [*, if_false]
      exact fin a (by grind) (by grind) (by simp; grind) (by grind) (by grind)
    · intro a ha
      have : a ≠ v := by grind
      have : a ≠ lv := by grind
      have : a ≠ tv := by grind
      simp only [*, if_false]
      rw [q3 _ (by grind), k2 _ (by grind)]
    · intro a ha
      have : a ≠ v := by grind
      have : a ≠ lv := by grind
      have : a ≠ tv := by grind
      simp only [*, if_false]
    · intro a ha
      have : a ≠ v := by grind
      have : a ≠ lv := by grind
      have : a ≠ tv := by grind
      simp only [*, if_false]
      exact fin a (by grind) (by grind) (by simp; grind) (by grind) (by grind)
  · simpa [addrs] using zn'
  · intro a ha
    simp only [addrs, List.mem_append, List.mem_cons, not_or] at ha
    have : a ≠ v := by grind
    have : a ≠ lv := by grind
    have : a ≠ tv := by grind
    simp only [*, if_false]
    exact fin a (by grind) (by grind) (by simp; grind) (by grind) (by grind)
  · intro x hx
    simp only [q4, k3, i4]
    exact f4.root x hx

end Verif.Links
