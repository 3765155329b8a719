import Verif.Lemmas.LinksGood
import Verif.Spec.Ownership

/-!
# Iterating through the linked maps
-/

namespace Verif.Links

open Verif.Map (Tree Path Frame Dir plug plug1)
open Verif.Spec (World)

variable {κ : Type} {lt : κ → κ → Bool}

theorem firstElement_pos {h : Store κ} {m : MapId} (t : Tree κ Addr) (s : Option Addr) (p : Path κ Addr)
    (v : Addr) (n : Nat) (ht : Rep h.node m s t) (hv : ptr t = some v) (hn : (addrs t).length ≤ n) :
    ∃ z, Map.firstPos t p = some z ∧ firstElement n v h = .ok z.val := by
  induction t generalizing s p v n with
  | nil => cases hv
  | node b l k w r ihl _ =>
    obtain ⟨h1, h2, h3⟩ := ht
    simp only [ptr_node, Option.some.injEq] at hv
    subst hv
    simp only [addrs, List.length_append, List.length_cons] at hn
    obtain ⟨n, rfl⟩ : ∃ n', n = n' + 1 := ⟨n - 1, by omega⟩
    simp only [firstElement, get_eq h1, Out.ok_bind]
    cases l with
    | nil => exact ⟨_, rfl, rfl⟩
    | node lb ll lk lv lr =>
      simp only [ptr_node, Map.firstPos]
      exact ihl _ _ _ _ h2 rfl (by omega)

theorem lastElement_pos {h : Store κ} {m : MapId} (t : Tree κ Addr) (s : Option Addr) (p : Path κ Addr)
    (v : Addr) (n : Nat) (ht : Rep h.node m s t) (hv : ptr t = some v) (hn : (addrs t).length ≤ n) :
    ∃ z, Map.lastPos t p = some z ∧ lastElement n v h = .ok z.val := by
  induction t generalizing s p v n with
  | nil => cases hv
  | node b l k w r _ ihr =>
    obtain ⟨h1, h2, h3⟩ := ht
    simp only [ptr_node, Option.some.injEq] at hv
    subst hv
    simp only [addrs, List.length_append, List.length_cons] at hn
    obtain ⟨n, rfl⟩ : ∃ n', n = n' + 1 := ⟨n - 1, by omega⟩
    simp only [lastElement, get_eq h1, Out.ok_bind]
    cases r with
    | nil => exact ⟨_, rfl, rfl⟩
    | node lb ll lk lv lr =>
      simp only [ptr_node, Map.lastPos]
      exact ihr _ _ _ _ h3 rfl (by omega)

theorem frameNode_right {m : MapId} {f : Frame κ Addr} {p : Path κ Addr} {v : Addr}
    (h : v ∉ paddrs (f :: p)) (s : Option Addr) :
    ((frameNode m f s (some v)).right = some v) ↔ f.dir = .R := by
  obtain ⟨d, b, k, w, t⟩ := f
  cases d with
  | L =>
    simp only [frameNode, reduceCtorEq, iff_false]
    intro e
    exact h (by simp [paddrs, ptr_mem e])
  | R => simp [frameNode]

theorem climbNext_pos {h : Store κ} {m : MapId} (p : Path κ Addr) (t : Tree κ Addr) (v : Addr) (n : Nat)
    (z : Zip h m p t) (hv : ptr t = some v) (hn : p.length < n) :
    climbNext n v h = .ok ((Map.climbNext p t).map (·.val)) := by
  induction p generalizing t v n with
  | nil =>
    obtain ⟨n, rfl⟩ : ∃ n', n = n' + 1 := ⟨n - 1, by omega⟩
    cases t with
    | nil => cases hv
    | node b l k w r =>
      cases hv
      simp [climbNext, get_eq z.tree.1, Map.climbNext]
  | cons f p ih =>
    simp only [List.length_cons] at hn
    obtain ⟨n, rfl⟩ : ∃ n', n = n' + 1 := ⟨n - 1, by omega⟩
    cases t with
    | nil => cases hv
    | node b l k w r =>
      cases hv
      have hnot : v ∉ paddrs (f :: p) := by
        have := z.nodup
        simp only [List.nodup_append, addrs] at this
        intro hc
        exact this.2.2 v (by simp) v hc rfl
      have hl := frameNode_left (m := m) hnot (supOf p)
      have hf := z.path.1
      simp only [ptr_node] at hf
      simp only [climbNext, get_eq z.tree.1, supOf_cons, get_eq hf, Out.ok_bind, hl]
      have := ih _ f.val n ((zip_step _ _ _ _ _).1 z) (ptr_plug1 _ _) (by omega)
      rw [this, Map.climbNext]
      cases f.dir <;> simp

theorem climbPrev_pos {h : Store κ} {m : MapId} (p : Path κ Addr) (t : Tree κ Addr) (v : Addr) (n : Nat)
    (z : Zip h m p t) (hv : ptr t = some v) (hn : p.length < n) :
    climbPrev n v h = .ok ((Map.climbPrev p t).map (·.val)) := by
  induction p generalizing t v n with
  | nil =>
    obtain ⟨n, rfl⟩ : ∃ n', n = n' + 1 := ⟨n - 1, by omega⟩
    cases t with
    | nil => cases hv
    | node b l k w r =>
      cases hv
      simp [climbPrev, get_eq z.tree.1, Map.climbPrev]
  | cons f p ih =>
    simp only [List.length_cons] at hn
    obtain ⟨n, rfl⟩ : ∃ n', n = n' + 1 := ⟨n - 1, by omega⟩
    cases t with
    | nil => cases hv
    | node b l k w r =>
      cases hv
      have hnot : v ∉ paddrs (f :: p) := by
        have := z.nodup
        simp only [List.nodup_append, addrs] at this
        intro hc
        exact this.2.2 v (by simp) v hc rfl
      have hl := frameNode_right (m := m) hnot (supOf p)
      have hf := z.path.1
      simp only [ptr_node] at hf
      simp only [climbPrev, get_eq z.tree.1, supOf_cons, get_eq hf, Out.ok_bind, hl]
      have := ih _ f.val n ((zip_step _ _ _ _ _).1 z) (ptr_plug1 _ _) (by omega)
      rw [this, Map.climbPrev]
      cases f.dir <;> simp

theorem nextElement_pos {h : Store κ} {m : MapId} {p : Path κ Addr} {b : Int} {l r : Tree κ Addr} {k : κ}
    {v : Addr} {n : Nat} (z : Zip h m p (.node b l k v r))
    (hn : (addrs (.node b l k v r) ++ paddrs p).length ≤ n) :
    nextElement n v h = .ok ((Map.nextPos ⟨p, b, l, k, v, r⟩).map (·.val)) := by
  have hlen := path_length p
  simp only [addrs, List.length_append, List.length_cons] at hn
  simp only [nextElement, get_eq z.tree.1, Out.ok_bind]
  cases r with
  | nil =>
    simp only [ptr_nil, Map.nextPos]
    exact climbNext_pos _ _ _ _ z rfl (by omega)
  | node rb rl rk rv rr =>
    obtain ⟨y, e1, e2⟩ := firstElement_pos (.node rb rl rk rv rr) _ (⟨.R, b, k, v, l⟩ :: p) rv n z.tree.2.2 rfl (by omega)
    simp only [ptr_node, Map.nextPos, e1, e2]
    rfl

theorem previousElement_pos {h : Store κ} {m : MapId} {p : Path κ Addr} {b : Int} {l r : Tree κ Addr} {k : κ}
    {v : Addr} {n : Nat} (z : Zip h m p (.node b l k v r))
    (hn : (addrs (.node b l k v r) ++ paddrs p).length ≤ n) :
    previousElement n v h = .ok ((Map.prevPos ⟨p, b, l, k, v, r⟩).map (·.val)) := by
  have hlen := path_length p
  simp only [addrs, List.length_append, List.length_cons] at hn
  simp only [previousElement, get_eq z.tree.1, Out.ok_bind]
  cases l with
  | nil =>
    simp only [ptr_nil, Map.prevPos]
    exact climbPrev_pos _ _ _ _ z rfl (by omega)
  | node rb rl rk rv rr =>
    obtain ⟨y, e1, e2⟩ := lastElement_pos (.node rb rl rk rv rr) _ (⟨.L, b, k, v, r⟩ :: p) rv n z.tree.2.1 rfl (by omega)
    simp only [ptr_node, Map.prevPos, e1, e2]
    rfl

theorem asymm (O : Spec.StrictTotal lt) {a b : κ} (h : lt a b = true) : lt b a = false :=
  Map.StrictTotal.asymm O h

/-- The next element in terms of the world. -/
theorem Good.next (O : Spec.StrictTotal lt) {h : Store κ} {T : MapId → Tree κ Addr}
    (g : Good lt h T) {n : Nat} {m : MapId} {k : κ} {a : Addr} (hv : view h a = some (k, some m))
    (hn : (addrs (T m)).length ≤ n) : ∃ o, nextElement n a h = .ok o ∧ Spec.IsNext lt (view h) m k o := by
  obtain ⟨p, b, l, r, e, z⟩ := g.position hv
  refine ⟨_, nextElement_pos z (by rw [← length_plug, ← e]; exact hn), ?_⟩
  have hf := Map.fromPos_nextPos ⟨p, b, l, k, a, r⟩
  simp only [Map.after] at hf
  have hlist : Map.toList (T m) = (Map.lefts p ++ Map.toList l) ++ (k, a) :: (Map.toList r ++ Map.rights p) := by
    rw [e, Map.toList_plug]; simp [Map.toList]
  have hs := g.sorted m
  rw [hlist] at hs
  obtain ⟨hs1, hs0, hs4⟩ := List.pairwise_append.1 hs
  obtain ⟨hs2, hs3⟩ := List.pairwise_cons.1 hs0
  cases hp : Map.nextPos ⟨p, b, l, k, a, r⟩ with
  | none =>
    rw [hp] at hf
    simp only [Map.fromPos] at hf
    simp only [Option.map_none, Spec.IsNext, World.In]
    intro x kx hx
    rw [← g.mem, hlist, ← hf] at hx
    simp only [List.mem_append, List.mem_cons, List.not_mem_nil, or_false] at hx
    rcases hx with hx | hx
    · exact asymm O (hs4 (kx, x) (by simpa using hx) (k, a) (by simp))
    · simp only [Prod.mk.injEq] at hx
      rw [hx.1]
      exact O.irrefl k
  | some y =>
    rw [hp] at hf
    simp only [Map.fromPos] at hf
    rw [← hf] at hs2 hs3 hlist
    simp only [Option.map_some, Spec.IsNext, World.In]
    refine ⟨y.key, ?_, hs2 (y.key, y.val) (by simp), ?_⟩
    · rw [← g.mem, hlist]; simp
    · intro x kx hx hlt
      rw [← g.mem, hlist] at hx
      simp only [List.mem_append, List.mem_cons] at hx
      rcases hx with hx | hx | hx | hx
      · rw [asymm O (hs4 (kx, x) (by simpa using hx) (k, a) (by simp))] at hlt
        cases hlt
      · simp only [Prod.mk.injEq] at hx
        rw [hx.1, O.irrefl] at hlt
        cases hlt
      · simp only [Prod.mk.injEq] at hx
        rw [hx.1]
        exact O.irrefl _
      · exact asymm O ((List.pairwise_cons.1 hs3).1 _ hx)

/-- The previous element in terms of the world. -/
theorem Good.previous (O : Spec.StrictTotal lt) {h : Store κ} {T : MapId → Tree κ Addr}
    (g : Good lt h T) {n : Nat} {m : MapId} {k : κ} {a : Addr} (hv : view h a = some (k, some m))
    (hn : (addrs (T m)).length ≤ n) : ∃ o, previousElement n a h = .ok o ∧ Spec.IsPrevious lt (view h) m k o := by
  obtain ⟨p, b, l, r, e, z⟩ := g.position hv
  refine ⟨_, previousElement_pos z (by rw [← length_plug, ← e]; exact hn), ?_⟩
  have hf := Map.uptoPos_prevPos ⟨p, b, l, k, a, r⟩
  simp only [Map.before] at hf
  have hf' := congrArg List.reverse hf
  rw [List.reverse_reverse] at hf'
  have hlist : Map.toList (T m) = (Map.lefts p ++ Map.toList l) ++ (k, a) :: (Map.toList r ++ Map.rights p) := by
    rw [e, Map.toList_plug]; simp [Map.toList]
  have hs := g.sorted m
  rw [hlist] at hs
  obtain ⟨hs1, hs0, hs4⟩ := List.pairwise_append.1 hs
  obtain ⟨hs2, hs3⟩ := List.pairwise_cons.1 hs0
  cases hp : Map.prevPos ⟨p, b, l, k, a, r⟩ with
  | none =>
    rw [hp] at hf'
    simp only [Map.uptoPos, List.reverse_nil] at hf'
    simp only [Option.map_none, Spec.IsPrevious, Spec.IsNext, World.In]
    intro x kx hx
    rw [← g.mem, hlist, ← hf'] at hx
    simp only [List.nil_append, List.mem_cons] at hx
    rcases hx with hx | hx
    · simp only [Prod.mk.injEq] at hx
      rw [hx.1]
      exact O.irrefl k
    · exact asymm O (hs2 _ hx)
  | some y =>
    rw [hp] at hf'
    simp only [Map.uptoPos, List.reverse_cons, List.reverse_reverse] at hf'
    rw [← hf'] at hs1 hs4 hlist
    simp only [Option.map_some, Spec.IsPrevious, Spec.IsNext, World.In]
    refine ⟨y.key, ?_, hs4 (y.key, y.val) (by simp) (k, a) (by simp), ?_⟩
    · rw [← g.mem, hlist]; simp
    · intro x kx hx hlt
      rw [← g.mem, hlist] at hx
      simp only [List.mem_append, List.mem_cons, List.not_mem_nil, or_false] at hx
      rcases hx with (hx | hx) | hx | hx
      · exact asymm O ((List.pairwise_append.1 hs1).2.2 (kx, x) hx (y.key, y.val) (by simp))
      · simp only [Prod.mk.injEq] at hx
        rw [hx.1]
        exact O.irrefl _
      · simp only [Prod.mk.injEq] at hx
        rw [hx.1, O.irrefl] at hlt
        cases hlt
      · rw [asymm O (hs2 (kx, x) (by simpa using hx))] at hlt
        cases hlt

theorem Good.first (O : Spec.StrictTotal lt) {h : Store κ} {T : MapId → Tree κ Addr}
    (g : Good lt h T) {n : Nat} (m : MapId) (hn : (addrs (T m)).length ≤ n) :
    ∃ o, mapFirst n m h = .ok o ∧ Spec.IsFirst lt (view h) m o := by
  have hr : h.root m = ptr (T m) := (g.zip m).path
  have hs := g.sorted m
  have hmem := g.mem m
  have hz := (g.zip m).tree
  unfold mapFirst
  rw [hr]
  cases ht : T m with
  | nil =>
    refine ⟨none, rfl, ?_⟩
    intro x kx hx
    rw [World.In, ← hmem, ht] at hx
    cases hx
  | node b l k v r =>
    rw [ht] at hz hs hmem hn
    obtain ⟨y, e1, e2⟩ := firstElement_pos (.node b l k v r) _ [] v n hz rfl hn
    refine ⟨some y.val, by simp only [ptr_node, e2]; rfl, ?_⟩
    have hf := Map.fromPos_firstPos (.node b l k v r) ([] : Path κ Addr) (by simp)
    rw [e1] at hf
    simp only [Map.fromPos, Map.rights, List.append_nil] at hf
    rw [← hf] at hs hmem
    refine ⟨y.key, (hmem _ _).1 (by simp), ?_⟩
    intro x kx hx
    rw [World.In, ← hmem] at hx
    simp only [List.mem_cons, Prod.mk.injEq] at hx
    rcases hx with hx | hx
    · rw [hx.1]; exact O.irrefl _
    · exact asymm O ((List.pairwise_cons.1 hs).1 _ hx)

theorem Good.last (O : Spec.StrictTotal lt) {h : Store κ} {T : MapId → Tree κ Addr}
    (g : Good lt h T) {n : Nat} (m : MapId) (hn : (addrs (T m)).length ≤ n) :
    ∃ o, mapLast n m h = .ok o ∧ Spec.IsLast lt (view h) m o := by
  have hr : h.root m = ptr (T m) := (g.zip m).path
  have hs := g.sorted m
  have hmem := g.mem m
  have hz := (g.zip m).tree
  unfold mapLast
  rw [hr]
  cases ht : T m with
  | nil =>
    refine ⟨none, rfl, ?_⟩
    intro x kx hx
    rw [World.In, ← hmem, ht] at hx
    cases hx
  | node b l k v r =>
    rw [ht] at hz hs hmem hn
    obtain ⟨y, e1, e2⟩ := lastElement_pos (.node b l k v r) _ [] v n hz rfl hn
    refine ⟨some y.val, by simp only [ptr_node, e2]; rfl, ?_⟩
    have hf := Map.uptoPos_lastPos (.node b l k v r) ([] : Path κ Addr) (by simp)
    rw [e1] at hf
    have hf' := congrArg List.reverse hf
    rw [List.reverse_reverse] at hf'
    simp only [Map.uptoPos, Map.lefts, List.nil_append, List.reverse_cons, List.reverse_reverse] at hf'
    rw [← hf'] at hs hmem
    refine ⟨y.key, (hmem _ _).1 (by simp), ?_⟩
    intro x kx hx
    rw [World.In, ← hmem] at hx
    simp only [List.mem_append, List.mem_cons, List.not_mem_nil, or_false, Prod.mk.injEq] at hx
    rcases hx with hx | hx
    · exact asymm O ((List.pairwise_append.1 hs).2.2 (kx, x) hx (y.key, y.val) (by simp))
    · rw [hx.1]; exact O.irrefl _

/-- A loose object has neither a next nor a previous element. -/
theorem Good.loose_next {h : Store κ} {T : MapId → Tree κ Addr} (g : Good lt h T) {n : Nat} {k : κ} {a : Addr}
    (hv : view h a = some (k, none)) : nextElement (n + 1) a h = .ok none ∧ previousElement (n + 1) a h = .ok none := by
  obtain ⟨na, ha, -, ho⟩ := view_some hv
  obtain ⟨k1, k2, k3⟩ := g.loose a na ha ho
  simp [nextElement, previousElement, climbNext, climbPrev, get_eq ha, k1, k2, k3]

end Verif.Links
