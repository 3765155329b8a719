import Verif.Lemmas.LinksIter

/-!
# Emptying, purging and replacing in the linked maps
-/

namespace Verif.Links

open Verif.Map (Tree Path Frame Dir plug plug1)
open Verif.Spec (World)

variable {κ : Type} {lt : κ → κ → Bool}

theorem removeSubtree_spec {m : MapId} (t : Tree κ Addr) :
    ∀ (h : Store κ) (s : Option Addr) (v : Addr) (n : Nat), Rep h.node m s t → ptr t = some v →
      (addrs t).Nodup → (addrs t).length ≤ n →
      ∃ h', removeSubtree n v h = .ok h' ∧ h'.root = h.root ∧ (∀ x, x ∉ addrs t → h'.node x = h.node x) ∧
        ∀ k x, (k, x) ∈ Map.toList t → ∃ b, h'.node x = some ⟨none, none, none, none, b, k⟩ := by
  induction t with
  | nil => intro h s v n _ hv; cases hv
  | node b l k w r ihl ihr =>
    intro h s v n ht hv hd hn
    obtain ⟨h1, h2, h3⟩ := ht
    simp only [ptr_node, Option.some.injEq] at hv
    subst hv
    simp only [addrs, List.length_append, List.length_cons] at hn
    obtain ⟨n, rfl⟩ : ∃ n', n = n' + 1 := ⟨n - 1, by omega⟩
    simp only [addrs, List.nodup_append, List.nodup_cons, List.mem_cons] at hd
    obtain ⟨dl, ⟨dw, dr⟩, dlr⟩ := hd
    have hmem : ∀ (t : Tree κ Addr) (k : κ) (x : Addr), (k, x) ∈ Map.toList t → x ∈ addrs t := by
      intro t k x hx
      rw [addrs_toList]
      exact List.mem_map.2 ⟨_, hx, rfl⟩
    have hl : ∃ g, (match ptr l with
        | some l => removeSubtree n l h
        | none => (.ok h : Out (Store κ))) = .ok g ∧ g.root = h.root ∧ (∀ x, x ∉ addrs l → g.node x = h.node x) ∧
        ∀ k x, (k, x) ∈ Map.toList l → ∃ b, g.node x = some ⟨none, none, none, none, b, k⟩ := by
      cases l with
      | nil => exact ⟨h, rfl, rfl, fun _ _ => rfl, by intro k x hx; cases hx⟩
      | node lb ll lk lv lr => exact ihl h _ _ n h2 rfl dl (by omega)
    obtain ⟨g, l1, l2, l3, l4⟩ := hl
    have hwl : w ∉ addrs l := fun hc => dlr w hc w (.inl rfl) rfl
    have hgw := (l3 w hwl).trans h1
    have hr : ∃ g', (match ptr r with
        | some r => removeSubtree n r g
        | none => (.ok g : Out (Store κ))) = .ok g' ∧ g'.root = g.root ∧ (∀ x, x ∉ addrs r → g'.node x = g.node x) ∧
        ∀ k x, (k, x) ∈ Map.toList r → ∃ b, g'.node x = some ⟨none, none, none, none, b, k⟩ := by
      have h3' : Rep g.node m (some w) r := h3.congr fun x hx => l3 x fun hc => dlr x hc x (.inr hx) rfl
      cases r with
      | nil => exact ⟨g, rfl, rfl, fun _ _ => rfl, by intro k x hx; cases hx⟩
      | node lb ll lk lv lr => exact ihr g _ _ n h3' rfl dr (by omega)
    obtain ⟨g', r1, r2, r3, r4⟩ := hr
    have hgw' := (r3 w dw).trans hgw
    obtain ⟨g'', u1, u2, u3, u4⟩ := mod_spec hgw' fun n => { n with super := none, left := none, right := none, owner := none }
    refine ⟨g'', ?_, by rw [u4, r2, l2], ?_, ?_⟩
    · simp only [removeSubtree, get_eq h1, Out.ok_bind]
      refine (congrArg (fun x => x >>= _) l1).trans ?_
      simp only [Out.ok_bind, get_eq hgw]
      refine (congrArg (fun x => x >>= _) r1).trans ?_
      exact u1
    · intro x hx
      simp only [addrs, List.mem_append, List.mem_cons, not_or] at hx
      rw [u3 x hx.2.1, r3 x hx.2.2, l3 x hx.1]
    · intro k' x hx
      simp only [Map.toList, List.mem_append, List.mem_cons, Prod.mk.injEq] at hx
      rcases hx with hx | ⟨rfl, rfl⟩ | hx
      · have hxl := hmem _ _ _ hx
        rw [u3 x (by rintro rfl; exact hwl hxl), r3 x fun hc => dlr x hxl x (.inr hc) rfl]
        exact l4 k' x hx
      · exact ⟨_, u2⟩
      · have hxr := hmem _ _ _ hx
        rw [u3 x (by rintro rfl; exact dw hxr)]
        exact r4 k' x hx

theorem deleteSubtree_spec {m : MapId} (t : Tree κ Addr) :
    ∀ (h : Store κ) (s : Option Addr) (v : Addr) (n : Nat), Rep h.node m s t → ptr t = some v →
      (addrs t).Nodup → (addrs t).length ≤ n →
      ∃ h', deleteSubtree n v h = .ok h' ∧ h'.root = h.root ∧ (∀ x, x ∉ addrs t → h'.node x = h.node x) ∧
        ∀ x, x ∈ addrs t → h'.node x = none := by
  induction t with
  | nil => intro h s v n _ hv; cases hv
  | node b l k w r ihl ihr =>
    intro h s v n ht hv hd hn
    obtain ⟨h1, h2, h3⟩ := ht
    simp only [ptr_node, Option.some.injEq] at hv
    subst hv
    simp only [addrs, List.length_append, List.length_cons] at hn
    obtain ⟨n, rfl⟩ : ∃ n', n = n' + 1 := ⟨n - 1, by omega⟩
    simp only [addrs, List.nodup_append, List.nodup_cons, List.mem_cons] at hd
    obtain ⟨dl, ⟨dw, dr⟩, dlr⟩ := hd
    have hl : ∃ g, (match ptr l with
        | some l => deleteSubtree n l h
        | none => (.ok h : Out (Store κ))) = .ok g ∧ g.root = h.root ∧ (∀ x, x ∉ addrs l → g.node x = h.node x) ∧
        ∀ x, x ∈ addrs l → g.node x = none := by
      cases l with
      | nil => exact ⟨h, rfl, rfl, fun _ _ => rfl, by intro x hx; cases hx⟩
      | node lb ll lk lv lr => exact ihl h _ _ n h2 rfl dl (by omega)
    obtain ⟨g, l1, l2, l3, l4⟩ := hl
    have hwl : w ∉ addrs l := fun hc => dlr w hc w (.inl rfl) rfl
    have hgw := (l3 w hwl).trans h1
    have hr : ∃ g', (match ptr r with
        | some r => deleteSubtree n r g
        | none => (.ok g : Out (Store κ))) = .ok g' ∧ g'.root = g.root ∧ (∀ x, x ∉ addrs r → g'.node x = g.node x) ∧
        ∀ x, x ∈ addrs r → g'.node x = none := by
      have h3' : Rep g.node m (some w) r := h3.congr fun x hx => l3 x fun hc => dlr x hc x (.inr hx) rfl
      cases r with
      | nil => exact ⟨g, rfl, rfl, fun _ _ => rfl, by intro x hx; cases hx⟩
      | node lb ll lk lv lr => exact ihr g _ _ n h3' rfl dr (by omega)
    obtain ⟨g', r1, r2, r3, r4⟩ := hr
    have hgw' := (r3 w dw).trans hgw
    obtain ⟨g'', u1, u2, u3, u4⟩ := mod_spec hgw' fun n => { n with owner := none }
    refine ⟨{ g'' with node := fun x => if x = w then none else g''.node x }, ?_, by simp [u4, r2, l2], ?_, ?_⟩
    · simp only [deleteSubtree, get_eq h1, Out.ok_bind]
      refine (congrArg (fun x => x >>= _) l1).trans ?_
      simp only [Out.ok_bind, get_eq hgw]
      refine (congrArg (fun x => x >>= _) r1).trans ?_
      simp only [Out.ok_bind, u1, destroy, detach, get_eq u2]
      rfl
    · intro x hx
      simp only [addrs, List.mem_append, List.mem_cons, not_or] at hx
      simp [hx.2.1, u3 x hx.2.1, r3 x hx.2.2, l3 x hx.1]
    · intro x hx
      simp only [addrs, List.mem_append, List.mem_cons] at hx
      by_cases hxw : x = w
      · simp [hxw]
      · simp only [hxw, if_false, u3 x hxw]
        rcases hx with hx | hx | hx
        · rw [r3 x fun hc => dlr x hx x (.inr hc) rfl]
          exact l4 x hx
        · exact absurd hx hxw
        · exact r4 x hx

theorem Good.tree_nodup {h : Store κ} {T : MapId → Tree κ Addr} (g : Good lt h T) (m : MapId) : (addrs (T m)).Nodup := by
  have := (g.zip m).nodup
  simpa [paddrs] using this

/-- `RemoveAllMapElements`. -/
theorem Good.removeAll {h : Store κ} {T : MapId → Tree κ Addr} (g : Good lt h T) {n : Nat} (m : MapId)
    (hn : (addrs (T m)).length ≤ n) :
    ∃ h', removeAll n m h = .ok h' ∧ Good lt h' (fun x => if x = m then .nil else T x) ∧
      view h' = World.release (view h) m := by
  have hr : h.root m = ptr (T m) := (g.zip m).path
  have hz := (g.zip m).tree
  have hd := g.tree_nodup m
  obtain ⟨h', e1, e2, e3, e4, e5⟩ : ∃ h', Links.removeAll n m h = .ok h' ∧ h'.root m = none ∧
      (∀ x, x ≠ m → h'.root x = h.root x) ∧ (∀ x, x ∉ addrs (T m) → h'.node x = h.node x) ∧
      ∀ k x, (k, x) ∈ Map.toList (T m) → ∃ b, h'.node x = some ⟨none, none, none, none, b, k⟩ := by
    unfold Links.removeAll
    rw [hr]
    cases ht : T m with
    | nil => exact ⟨h, rfl, by rw [hr, ht]; rfl, fun _ _ => rfl, fun _ _ => rfl, by intro k x hx; cases hx⟩
    | node b l k v r =>
      rw [ht] at hz hn hd
      obtain ⟨h', a1, a2, a3, a4⟩ := removeSubtree_spec (.node b l k v r) h _ v n hz rfl hd hn
      refine ⟨h'.setRoot m none, by simp only [ptr_node, a1]; rfl, by simp [Store.setRoot], ?_, a3, a4⟩
      intro x hx
      simp [Store.setRoot, hx, a2]
  have hmem : ∀ x, x ∈ addrs (T m) → ∃ k b, view h x = some (k, some m) ∧ h'.node x = some ⟨none, none, none, none, b, k⟩ := by
    intro x hx
    obtain ⟨k, hk⟩ := (g.mem_addrs m x).1 hx
    obtain ⟨b, hb⟩ := e5 k x ((g.mem m k x).2 hk)
    exact ⟨k, b, hk, hb⟩
  have hu := g.update (h' := h') (t' := .nil) (addrs (T m)) ⟨fun x hx => e4 x (by simpa using hx), e3⟩
    ⟨e2, trivial, by simp [addrs, paddrs]⟩ trivial (by simp [Map.toList, Map.Sorted]) (by
      intro x hx m' hm hc
      rw [g.mem_addrs] at hx hc
      obtain ⟨k1, h1⟩ := hx
      obtain ⟨k2, h2⟩ := hc
      rw [h1] at h2
      simp at h2
      exact hm h2.2.symm) (by
      intro x hx k
      simp only [Map.toList, List.not_mem_nil, iff_false]
      intro hc
      apply hx
      rw [addrs_toList]
      exact List.mem_map.2 ⟨_, hc, rfl⟩) (by
      intro x hx nx hnx
      obtain ⟨k, b, -, hb⟩ := hmem x hx
      rw [hb] at hnx
      cases hnx
      exact ⟨fun _ => ⟨rfl, rfl, rfl⟩, by intro m' hm; cases hm⟩)
  refine ⟨h', e1, hu.1, ?_⟩
  funext x
  by_cases hx : x ∈ addrs (T m)
  · obtain ⟨k, b, hk, hb⟩ := hmem x hx
    simp only [World.release, hk, if_true]
    simp [view, hb]
  · rw [hu.2 x hx]
    rw [g.mem_addrs] at hx
    simp only [World.release]
    cases hv : view h x with
    | none => rfl
    | some y =>
      obtain ⟨k, o⟩ := y
      cases o with
      | none => rfl
      | some m' =>
        have : m' ≠ m := by rintro rfl; exact hx ⟨k, hv⟩
        simp [this]

/-- `PurgeMap`. -/
theorem Good.purge {h : Store κ} {T : MapId → Tree κ Addr} (g : Good lt h T) {n : Nat} (m : MapId)
    (hn : (addrs (T m)).length ≤ n) :
    ∃ h', purge n m h = .ok h' ∧ Good lt h' (fun x => if x = m then .nil else T x) ∧
      view h' = World.delete (view h) m := by
  have hr : h.root m = ptr (T m) := (g.zip m).path
  have hz := (g.zip m).tree
  have hd := g.tree_nodup m
  obtain ⟨h', e1, e2, e3, e4, e5⟩ : ∃ h', Links.purge n m h = .ok h' ∧ h'.root m = none ∧
      (∀ x, x ≠ m → h'.root x = h.root x) ∧ (∀ x, x ∉ addrs (T m) → h'.node x = h.node x) ∧
      ∀ x, x ∈ addrs (T m) → h'.node x = none := by
    unfold Links.purge
    rw [hr]
    cases ht : T m with
    | nil => exact ⟨h, rfl, by rw [hr, ht]; rfl, fun _ _ => rfl, fun _ _ => rfl, by intro x hx; cases hx⟩
    | node b l k v r =>
      rw [ht] at hz hn hd
      obtain ⟨h', a1, a2, a3, a4⟩ := deleteSubtree_spec (.node b l k v r) h _ v n hz rfl hd hn
      refine ⟨h'.setRoot m none, by simp only [ptr_node, a1]; rfl, by simp [Store.setRoot], ?_, a3, a4⟩
      intro x hx
      simp [Store.setRoot, hx, a2]
  have hu := g.update (h' := h') (t' := .nil) (addrs (T m)) ⟨fun x hx => e4 x (by simpa using hx), e3⟩
    ⟨e2, trivial, by simp [addrs, paddrs]⟩ trivial (by simp [Map.toList, Map.Sorted]) (by
      intro x hx m' hm hc
      rw [g.mem_addrs] at hx hc
      obtain ⟨k1, h1⟩ := hx
      obtain ⟨k2, h2⟩ := hc
      rw [h1] at h2
      simp at h2
      exact hm h2.2.symm) (by
      intro x hx k
      simp only [Map.toList, List.not_mem_nil, iff_false]
      intro hc
      apply hx
      rw [addrs_toList]
      exact List.mem_map.2 ⟨_, hc, rfl⟩) (by
      intro x hx nx hnx
      rw [e5 x hx] at hnx
      cases hnx)
  refine ⟨h', e1, hu.1, ?_⟩
  funext x
  by_cases hx : x ∈ addrs (T m)
  · obtain ⟨k, hk⟩ := (g.mem_addrs m x).1 hx
    simp only [World.delete, hk, if_true]
    simp [view, e5 x hx]
  · rw [hu.2 x hx]
    rw [g.mem_addrs] at hx
    simp only [World.delete]
    cases hv : view h x with
    | none => rfl
    | some y =>
      obtain ⟨k, o⟩ := y
      cases o with
      | none => rfl
      | some m' =>
        have : m' ≠ m := by rintro rfl; exact hx ⟨k, hv⟩
        simp [this]

/-- A new object. -/
theorem Good.create {h : Store κ} {T : MapId → Tree κ Addr} (g : Good lt h T) {a : Addr} (k : κ)
    (hv : view h a = none) :
    Good lt (create a k h) T ∧ view (create a k h) = World.set (view h) a (some (k, none)) := by
  refine ⟨g.outside (g.not_mem (by rw [hv]; simp)) _ ?_, ?_⟩
  · rintro n hn
    cases hn
    exact ⟨rfl, fun _ => ⟨rfl, rfl, rfl⟩⟩
  · funext x
    simp only [view, Links.create, World.set]
    split <;> simp

/-- `delete` of an object. -/
theorem Good.destroy [DecidableEq κ] (O : Spec.StrictTotal lt) {h : Store κ} {T : MapId → Tree κ Addr}
    (g : Good lt h T) {n : Nat} {k : κ} {o : Option MapId} {a : Addr} (hv : view h a = some (k, o))
    (hn : ∀ m, (addrs (T m)).length ≤ n) :
    ∃ h' T', destroy n a h = .ok h' ∧ Good lt h' T' ∧ (∀ m, (addrs (T' m)).length ≤ (addrs (T m)).length) ∧
      view h' = World.set (view h) a none := by
  obtain ⟨h1, T1, d1, g1, d2, d3, d4, d5⟩ := g.detach O hv hn
  refine ⟨_, T1, by simp only [Links.destroy, d1, Out.ok_bind]; rfl,
    g1.outside (g1.not_mem (by rw [d4]; simp)) none (by simp), d2, ?_⟩
  funext x
  simp only [view, World.set]
  split
  · rfl
  · next hx => exact d5 x hx

end Verif.Links
