import Verif.Lemmas.LinksForest

/-!
# Searching and inserting in the linked maps
-/

namespace Verif.Links

open Verif.Map (Tree Path Frame Dir plug plug1)

variable {κ : Type} {lt : κ → κ → Bool}

theorem findFrom_spec {h : Store κ} {m : MapId} (key : κ) (t : Tree κ Addr) (s : Option Addr) (n : Nat)
    (ht : Rep h.node m s t) (hn : (addrs t).length ≤ n) :
    findFrom lt key n (ptr t) h = .ok ((Map.findMapElement lt key t).map (·.2)) := by
  induction t generalizing s n with
  | nil => simp [findFrom, Map.findMapElement]
  | node b l k v r ihl ihr =>
    obtain ⟨h1, h2, h3⟩ := ht
    simp only [addrs, List.length_append, List.length_cons] at hn
    obtain ⟨n, rfl⟩ : ∃ n', n = n' + 1 := ⟨n - 1, by omega⟩
    simp only [ptr_node, findFrom, get_eq h1, Out.ok_bind, Map.findMapElement]
    split
    · exact ihl _ _ h2 (by omega)
    · split
      · exact ihr _ _ h3 (by omega)
      · rfl

/-- Inserting at the position found. -/
def insertAt (n : Nat) (m : MapId) (a : Addr) (q : Path κ Addr) (h : Store κ) : Out (Store κ) :=
  match q with
  | [] => setRootElement n m a h
  | f :: _ => match f.dir with
    | .L => insertLeftSubnode n m f.val a h
    | .R => insertRightSubnode n m f.val a h

theorem insertSearch_spec {h : Store κ} {m : MapId} (key : κ) (a : Addr) (f : Nat) (t : Tree κ Addr)
    (s : Option Addr) (p : Path κ Addr) (v : Addr) (n : Nat)
    (ht : Rep h.node m s t) (hv : ptr t = some v) (hn : (addrs t).length ≤ n) :
    insertSearch lt f m key a n v h =
      match Map.descend lt key t p with
      | none => .ok (false, h)
      | some q => (true, ·) <$> insertAt f m a q h := by
  induction t generalizing s n v p with
  | nil => cases hv
  | node b l k w r ihl ihr =>
    obtain ⟨h1, h2, h3⟩ := ht
    simp only [ptr_node, Option.some.injEq] at hv
    subst hv
    simp only [addrs, List.length_append, List.length_cons] at hn
    obtain ⟨n, rfl⟩ : ∃ n', n = n' + 1 := ⟨n - 1, by omega⟩
    simp only [insertSearch, get_eq h1, Out.ok_bind, Map.descend]
    split
    · cases l with
      | nil => simp only [ptr_nil, Map.descend, insertAt]
      | node lb ll lk lv lr => exact ihl _ _ _ _ h2 rfl (by omega)
    · split
      · cases r with
        | nil => simp only [ptr_nil, Map.descend, insertAt]
        | node lb ll lk lv lr => exact ihr _ _ _ _ h3 rfl (by omega)
      · rfl

/-- The reservation for a position. -/
def reservation (q : Path κ Addr) : Reservation :=
  match q with
  | [] => ⟨none, 0⟩
  | f :: _ => ⟨some f.val, dirInt f.dir⟩

theorem reserveLoop_spec {h : Store κ} {m : MapId} (key : κ) (t : Tree κ Addr)
    (s : Option Addr) (p : Path κ Addr) (v : Addr) (n : Nat)
    (ht : Rep h.node m s t) (hv : ptr t = some v) (hn : (addrs t).length ≤ n) :
    reserveLoop lt key n v h = .ok ((Map.descend lt key t p).map reservation) := by
  induction t generalizing s n v p with
  | nil => cases hv
  | node b l k w r ihl ihr =>
    obtain ⟨h1, h2, h3⟩ := ht
    simp only [ptr_node, Option.some.injEq] at hv
    subst hv
    simp only [addrs, List.length_append, List.length_cons] at hn
    obtain ⟨n, rfl⟩ : ∃ n', n = n' + 1 := ⟨n - 1, by omega⟩
    simp only [reserveLoop, get_eq h1, Out.ok_bind, Map.descend]
    split
    · cases l with
      | nil => rfl
      | node lb ll lk lv lr => exact ihl _ _ _ _ h2 rfl (by omega)
    · split
      · cases r with
        | nil => rfl
        | node lb ll lk lv lr => exact ihr _ _ _ _ h3 rfl (by omega)
      · rfl

theorem insertReserved_eq (n : Nat) (m : MapId) (a : Addr) (q : Path κ Addr) (h : Store κ) :
    insertReserved n m a (reservation q) h = insertAt n m a q h := by
  cases q with
  | nil => rfl
  | cons f q =>
    obtain ⟨d, b, k, v, s⟩ := f
    cases d <;> rfl

theorem reserveMapElement_spec {h : Store κ} {m : MapId} {t : Tree κ Addr} (z : Zip h m [] t) (key : κ) (n : Nat)
    (hn : (addrs t).length ≤ n) :
    reserveMapElement lt n m key h = .ok ((Map.descend lt key t []).map reservation) := by
  have hr : h.root m = ptr t := z.path
  unfold reserveMapElement
  rw [hr]
  cases t with
  | nil => rfl
  | node b l k v r => exact reserveLoop_spec key _ _ _ _ _ z.tree rfl hn

theorem insertMapElement_spec {h : Store κ} {m : MapId} {t : Tree κ Addr} (z : Zip h m [] t) {a : Addr}
    {na : Node κ} (ha : h.node a = some na) (n : Nat) (hn : (addrs t).length ≤ n) :
    insertMapElement lt n m a h =
      match Map.descend lt na.key t [] with
      | none => .ok (false, h)
      | some q => (true, ·) <$> insertAt n m a q h := by
  have hr : h.root m = ptr t := z.path
  unfold insertMapElement
  rw [hr]
  cases t with
  | nil => rfl
  | node b l k v r =>
    simp only [ptr_node, get_eq ha, Out.ok_bind]
    exact insertSearch_spec _ _ _ _ _ _ _ _ z.tree rfl hn

/-- Linking a loose object below a node. -/
theorem attach_spec {h : Store κ} {m : MapId} {f : Frame κ Addr} {q : Path κ Addr} {a : Addr} {na : Node κ} {n : Nat}
    {t' : Tree κ Addr} (z : Zip h m (f :: q) .nil) (ha : h.node a = some na) (hl : Loose na) (ho : na.owner = none)
    (hnot : a ∉ paddrs (f :: q)) (hq : q.length < n) (e : Map.insertSubnode f q na.key a = some t') :
    ∃ h', insertAt n m a (f :: q) h = .ok h' ∧ Zip h' m [] t' ∧ Same m (a :: paddrs (f :: q)) h h' := by
  obtain ⟨k1, k2, k3⟩ := hl ho
  obtain ⟨s0, l0, r0, o0, b0, k0⟩ := na
  simp only at k1 k2 k3 ho e
  subst k1 k2 k3 ho
  obtain ⟨⟨z1, z2, z3⟩, -, z5⟩ := z
  obtain ⟨d, b, k, v, s⟩ := f
  simp only [addrs, List.nil_append] at z5
  simp only [ptr_nil] at z1
  have hav : a ≠ v := by rintro rfl; exact hnot (by simp [paddrs])
  have hd : detach n a h = .ok h := by simp [detach, get_eq ha]
  have z5' := z5
  simp only [paddrs, List.nodup_cons, List.mem_append, not_or] at z5' hnot
  have key : ∀ h5 : Store κ, h5.node a = some ⟨some v, none, none, some m, 0, k0⟩ →
      h5.node v = some (frameNode m { dir := d, balance := b + dirInt d, key := k, val := v, sibling := s : Frame κ Addr } (supOf q) (some a)) →
      (∀ x, x ≠ a → x ≠ v → h5.node x = h.node x) → h5.root = h.root →
      Zip h5 m q (plug1 ⟨d, b + dirInt d, k, v, s⟩ (.node 0 .nil k0 a .nil)) := by
    intro h5 c1 c2 c3 c4
    rw [← zip_step]
    refine ⟨⟨c2, z2.congr ?_, ?_⟩, ⟨c1, trivial, trivial⟩, ?_⟩
    · intro x hx
      exact c3 x (by rintro rfl; simp [hx] at hnot) (by rintro rfl; exact z5'.1.1 hx)
    · rw [c4]
      exact z3.congr fun x hx => c3 x (by rintro rfl; simp [hx] at hnot) (by rintro rfl; exact z5'.1.2 hx)
    · simp only [addrs, List.nil_append, List.cons_append]
      rw [List.nodup_cons]
      refine ⟨?_, z5⟩
      simp only [paddrs, List.mem_cons, List.mem_append, not_or]
      simpa using hnot
  have fin : ∀ h5 : Store κ, Zip h5 m q (plug1 ⟨d, b + dirInt d, k, v, s⟩ (.node 0 .nil k0 a .nil)) →
      (∀ x, x ≠ a → x ≠ v → h5.node x = h.node x) → h5.root = h.root →
      ∃ h', (if b + dirInt d ≠ 0 then insertLoop m n (dirInt d) v h5 else .ok h5) = .ok h' ∧ Zip h' m [] t' ∧
        Same m (a :: paddrs (⟨d, b, k, v, s⟩ :: q)) h h' := by
    intro h5 z5 c3 c4
    have hsame : Same m (a :: paddrs (⟨d, b, k, v, s⟩ :: q)) h h5 := by
      refine ⟨fun x hx => ?_, fun x _ => by rw [c4]⟩
      simp only [paddrs, List.mem_cons, not_or] at hx
      exact c3 x hx.1 hx.2.1
    have e' : (if b + dirInt d ≠ 0 then Map.insertClimb d q (plug1 ⟨d, b + dirInt d, k, v, s⟩ (.node 0 .nil k0 a .nil))
        else some (plug q (plug1 ⟨d, b + dirInt d, k, v, s⟩ (.node 0 .nil k0 a .nil)))) = some t' := by
      rw [← e]
      cases d <;> rfl
    split
    · next hb =>
      rw [if_pos hb] at e'
      obtain ⟨h', i1, i2, i3⟩ := insertLoop_spec q n h5 m d _ t' v hq z5 (ptr_plug1 _ _) e'
      refine ⟨h', i1, i2, hsame.trans (i3.mono ?_)⟩
      intro x hx
      simp only [List.mem_append, mem_addrs_plug1, addrs, List.nil_append, List.mem_cons, paddrs] at hx ⊢
      grind
    · next hb =>
      rw [if_neg hb] at e'
      cases e'
      exact ⟨h5, rfl, (zip_plug _ _ _ _).1 z5, hsame⟩
  cases d with
  | L =>
    obtain ⟨h1, m1, n1, o1, r1⟩ := mod_spec z1 fun n => { n with left := some a }
    have n1a : h1.node a = some ⟨none, none, none, none, b0, k0⟩ := by rw [o1 a hav, ha]
    obtain ⟨h2, m2, n2, o2, r2⟩ := mod_spec n1a fun n => { n with super := some v }
    obtain ⟨h3, m3, n3, o3, r3⟩ := mod_spec n2 fun n => { n with owner := some m }
    obtain ⟨h4, m4, n4, o4, r4⟩ := mod_spec n3 fun n => { n with balance := 0 }
    have n4v : h4.node v = some (⟨supOf q, some a, ptr s, some m, b, k⟩ : Node κ) := by
      rw [o4 v (Ne.symm hav), o3 v (Ne.symm hav), o2 v (Ne.symm hav), n1]; rfl
    obtain ⟨h5, m5, n5, o5, r5⟩ := mod_spec n4v fun n => { n with balance := b - 1 }
    have n5a : h5.node a = some ⟨some v, none, none, some m, 0, k0⟩ := by rw [o5 a hav, n4]
    have other : ∀ x, x ≠ a → x ≠ v → h5.node x = h.node x := by
      intro x e1 e2
      rw [o5 x e2, o4 x e1, o3 x e1, o2 x e1, o1 x e2]
    have hroot : h5.root = h.root := by rw [r5, r4, r3, r2, r1]
    obtain ⟨h', q1, q2, q3⟩ := fin h5 (key h5 n5a n5 other hroot) other hroot
    refine ⟨h', ?_, q2, q3⟩
    simp only [insertAt, insertLeftSubnode, hd, Out.ok_bind, m1, m2, m3, m4, get_eq n4v, m5]
    exact q1
  | R =>
    obtain ⟨h1, m1, n1, o1, r1⟩ := mod_spec z1 fun n => { n with right := some a }
    have n1a : h1.node a = some ⟨none, none, none, none, b0, k0⟩ := by rw [o1 a hav, ha]
    obtain ⟨h2, m2, n2, o2, r2⟩ := mod_spec n1a fun n => { n with super := some v }
    obtain ⟨h3, m3, n3, o3, r3⟩ := mod_spec n2 fun n => { n with owner := some m }
    obtain ⟨h4, m4, n4, o4, r4⟩ := mod_spec n3 fun n => { n with balance := 0 }
    have n4v : h4.node v = some (⟨supOf q, ptr s, some a, some m, b, k⟩ : Node κ) := by
      rw [o4 v (Ne.symm hav), o3 v (Ne.symm hav), o2 v (Ne.symm hav), n1]; rfl
    obtain ⟨h5, m5, n5, o5, r5⟩ := mod_spec n4v fun n => { n with balance := b + 1 }
    have n5a : h5.node a = some ⟨some v, none, none, some m, 0, k0⟩ := by rw [o5 a hav, n4]
    have other : ∀ x, x ≠ a → x ≠ v → h5.node x = h.node x := by
      intro x e1 e2
      rw [o5 x e2, o4 x e1, o3 x e1, o2 x e1, o1 x e2]
    have hroot : h5.root = h.root := by rw [r5, r4, r3, r2, r1]
    obtain ⟨h', q1, q2, q3⟩ := fin h5 (key h5 n5a n5 other hroot) other hroot
    refine ⟨h', ?_, q2, q3⟩
    simp only [insertAt, insertRightSubnode, hd, Out.ok_bind, m1, m2, m3, m4, get_eq n4v, m5]
    exact q1

/-- Insertion starts with `Detach`. -/
theorem insertAt_detach {n : Nat} {m : MapId} {a : Addr} {q : Path κ Addr} {h h1 : Store κ}
    (hd : detach n a h = .ok h1) (hd1 : detach n a h1 = .ok h1) :
    insertAt n m a q h = insertAt n m a q h1 := by
  unfold insertAt setRootElement insertLeftSubnode insertRightSubnode
  rw [hd, hd1]

/-- Making a loose object the root of an empty map. -/
theorem setRoot_spec {h : Store κ} {m : MapId} {a : Addr} {na : Node κ} (n : Nat)
    (ha : h.node a = some na) (hl : Loose na) (ho : na.owner = none) :
    ∃ h', insertAt n m a [] h = .ok h' ∧ Zip h' m [] (.node 0 .nil na.key a .nil) ∧ Same m [a] h h' := by
  obtain ⟨k1, k2, k3⟩ := hl ho
  obtain ⟨s0, l0, r0, o0, b0, k0⟩ := na
  simp only at k1 k2 k3 ho
  subst k1 k2 k3 ho
  have hd : detach n a h = .ok h := by simp [detach, get_eq ha]
  obtain ⟨h1, m1, n1, o1, r1⟩ := mod_spec ha fun n => { n with owner := some m }
  obtain ⟨h2, m2, n2, o2, r2⟩ := mod_spec n1 fun n => { n with balance := 0 }
  refine ⟨h2.setRoot m (some a), by simp [insertAt, setRootElement, hd, m1, m2], ⟨?_, ?_, ?_⟩, ?_, ?_⟩
  · simp [Store.setRoot, RepP]
  · exact ⟨n2, trivial, trivial⟩
  · simp [addrs, paddrs]
  · intro x hx
    simp only [List.mem_singleton] at hx
    simp [Store.setRoot, o2 x hx, o1 x hx]
  · intro x hx
    simp [Store.setRoot, hx, r2, r1]

end Verif.Links
