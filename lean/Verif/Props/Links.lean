import Verif.Lemmas.LinksReplace
import Verif.Props.Map

/-!
# Properties of the linked maps (C82-C86)

Objects, their keys and owners, and several maps over one store (`Verif.Model.Links`), against worlds of
objects (`Verif.Spec.Ownership`).
-/

namespace Verif.Props

open Verif.Links Verif.Spec

variable {κ : Type}

/-- A program without objects; every map is empty. -/
def noObjects : Store κ := ⟨fun _ => none, fun _ => none⟩

/-- The call of the library for an `Act`, with `n` steps for each of its loops. -/
def perform (lt : κ → κ → Bool) (n : Nat) : Act κ → Store κ → Out (Reply × Store κ)
  | .create a k, h => .ok (.unit, Links.create a k h)
  | .insert m a, h => do
      let (b, h) ← Links.insertMapElement lt n m a h
      return (.flag b, h)
  | .reserveInsert m a, h => do
      let e ← h.get a
      match ← Links.reserveMapElement lt n m e.key h with
      | none => return (.flag false, h)
      | some r =>
          let h ← Links.insertReserved n m a r h
          return (.flag true, h)
  | .replace m a, h => do
      let (x, h) ← Links.insertReplaceMapElement lt n m a h
      return (.element x, h)
  | .remove m a, h => do return (.unit, ← Links.removeMapElement n m a h)
  | .detach a, h => do return (.unit, ← Links.detach n a h)
  | .destroy a, h => do return (.unit, ← Links.destroy n a h)
  | .removeAll m, h => do return (.unit, ← Links.removeAll n m h)
  | .purge m, h => do return (.unit, ← Links.purge n m h)

/-- A sequence of calls. -/
def performAll (lt : κ → κ → Bool) (n : Nat) : List (Act κ) → Store κ → Out (List Reply × Store κ)
  | [], h => .ok ([], h)
  | c :: cs, h => do
      let (r, h) ← perform lt n c h
      let (rs, h) ← performAll lt n cs h
      return (r :: rs, h)

/-- The key and the owning map of an object, as `GetKey` and `GetOwningMap` return them. -/
def keyAndOwner (a : Addr) (h : Store κ) : Out (κ × Option MapId) := do
  let e ← h.get a
  return (e.key, e.owner)

/-- The call replaces the root of a map by another object. -/
def ReplacesRoot (h : Store κ) : Act κ → Prop
  | .replace m a => ∃ x nx na, h.root m = some x ∧ x ≠ a ∧ h.node x = some nx ∧ h.node a = some na ∧ nx.key = na.key
  | _ => False

/-- No call of the sequence replaces the root of a map. -/
def KeepsRoots (lt : κ → κ → Bool) (n : Nat) : List (Act κ) → Store κ → Prop
  | [], _ => True
  | c :: cs, h => ¬ ReplacesRoot h c ∧ ∀ r h', perform lt n c h = .ok (r, h') → KeepsRoots lt n cs h'

variable [DecidableEq κ] {lt : κ → κ → Bool}

theorem perform_step (O : StrictTotal lt) {n : Nat} {h : Store κ} {T : MapId → Map.Tree κ Addr} (g : Good lt h T)
    {c : Act κ} {r : Reply} {w' : World κ} (hs : ActStep (view h) c r w') (hn : ∀ m, (addrs (T m)).length ≤ n)
    (hk : ¬ ReplacesRoot h c) :
    ∃ h' T', perform lt n c h = .ok (r, h') ∧ Good lt h' T' ∧ view h' = w' ∧
      ∀ m, (addrs (T' m)).length ≤ (addrs (T m)).length + 1 := by
  have setView : ∀ (h' : Store κ) (a : Addr) (v : κ × Option Nat), view h' a = some v →
      (∀ x, x ≠ a → view h' x = view h x) → view h' = World.set (view h) a (some v) := by
    intro h' a v e1 e2
    funext x
    simp only [World.set]
    split
    · next hx => rw [hx, e1]
    · next hx => exact e2 x hx
  cases hs with
  | create hv =>
    obtain ⟨e1, e2⟩ := g.create _ hv
    exact ⟨_, T, rfl, e1, e2, fun m => by omega⟩
  | insert hv hx =>
    rcases g.insert O (n := n) hv hn with ⟨⟨x, e⟩, -⟩ | ⟨-, h', T', e1, e2, e3, e4, e5⟩
    · exact absurd e (hx x)
    · exact ⟨h', T', by simp only [perform, e1, Out.ok_bind]; rfl, e2, setView _ _ _ e4 e5, e3⟩
  | @insertPresent m _ _ _ _ hv hx =>
    rcases g.insert O (n := n) (m := m) hv hn with ⟨-, e⟩ | ⟨e, -⟩
    · exact ⟨h, T, by simp only [perform, e, Out.ok_bind]; rfl, g, rfl, fun m => by omega⟩
    · exact absurd ⟨_, hx⟩ e
  | reserveInsert hv hx =>
    rcases g.insert O (n := n) hv hn with ⟨⟨x, e⟩, -⟩ | ⟨-, h', T', e1, e2, e3, e4, e5⟩
    · exact absurd e (hx x)
    · rcases g.reserve O (n := n) hv hn with ⟨⟨x, e⟩, -⟩ | ⟨-, r, h'', f1, f2, f3⟩
      · exact absurd e (hx x)
      · rw [e1] at f3
        simp only [Out.ok.injEq, Prod.mk.injEq, true_and] at f3
        subst f3
        obtain ⟨na, ha, ka, -⟩ := view_some hv
        subst ka
        exact ⟨h', T', by simp only [perform, get_eq ha, Out.ok_bind, f1, f2]; rfl, e2, setView _ _ _ e4 e5, e3⟩
  | @reservePresent m _ _ _ _ hv hx =>
    rcases g.reserve O (n := n) (m := m) hv hn with ⟨-, e⟩ | ⟨e, -⟩
    · obtain ⟨na, ha, ka, -⟩ := view_some hv
      subst ka
      exact ⟨h, T, by simp only [perform, get_eq ha, Out.ok_bind, e]; rfl, g, rfl, fun m => by omega⟩
    · exact absurd ⟨_, hx⟩ e
  | remove hv =>
    obtain ⟨h', t', e1, e2, e3, e4, e5⟩ := g.remove O (n := n) hv (hn _)
    refine ⟨h', _, by simp only [perform, e1, Out.ok_bind]; rfl, e2, setView _ _ _ e4 e5, ?_⟩
    intro m'
    split
    · next hm => subst hm; omega
    · omega
  | detach hv =>
    obtain ⟨h', T', e1, e2, e3, -, e4, e5⟩ := g.detach O (n := n) hv hn
    refine ⟨h', T', by simp only [perform, e1, Out.ok_bind]; rfl, e2, setView _ _ _ e4 e5, ?_⟩
    intro m'
    have := e3 m'
    omega
  | destroy hv =>
    obtain ⟨h', T', e1, e2, e3, e4⟩ := g.destroy O (n := n) hv hn
    refine ⟨h', T', by simp only [perform, e1, Out.ok_bind]; rfl, e2, e4, ?_⟩
    intro m'
    have := e3 m'
    omega
  | @removeAll m =>
    obtain ⟨h', e1, e2, e3⟩ := g.removeAll (n := n) m (hn _)
    refine ⟨h', _, by simp only [perform, e1, Out.ok_bind]; rfl, e2, e3, ?_⟩
    intro m'
    split
    · simp [addrs]
    · omega
  | @purge m =>
    obtain ⟨h', e1, e2, e3⟩ := g.purge (n := n) m (hn _)
    refine ⟨h', _, by simp only [perform, e1, Out.ok_bind]; rfl, e2, e3, ?_⟩
    intro m'
    split
    · simp [addrs]
    · omega
  | @replaceNew m a k o hv hx =>
    have hroot : ∀ x, view h x = some (k, some m) → h.root m = some x → x = a := fun x e => absurd e (hx x)
    rcases g.replace O (n := n) hv hn hroot with ⟨-, h', T', e1, e2, e3, e4⟩ | ⟨e, -⟩ | ⟨x, e, -⟩
    · exact ⟨h', T', by simp only [perform, e1, Out.ok_bind]; rfl, e2, e4, e3⟩
    · exact absurd e (hx a)
    · exact absurd e (hx x)
  | @replaceSelf m a k hv =>
    have huniq : ∀ x, view h x = some (k, some m) → x = a := by
      intro x hx
      have h1 := (g.find_iff O m k x).2 hx
      have h2 := (g.find_iff O m k a).2 hv
      rw [h1] at h2
      simpa using h2
    rcases g.replace O (n := n) hv hn (fun x hx _ => huniq x hx) with ⟨e, -⟩ | ⟨-, e⟩ | ⟨x, e, e', -⟩
    · exact absurd ⟨_, hv⟩ e
    · exact ⟨h, T, by simp only [perform, e, Out.ok_bind]; rfl, g, rfl, fun m => by omega⟩
    · exact absurd (huniq x e) e'
  | @replaceOther m a k o x hv hx hxa =>
    have huniq : ∀ y, view h y = some (k, some m) → y = x := by
      intro y hy
      have h1 := (g.find_iff O m k x).2 hx
      have h2 := (g.find_iff O m k y).2 hy
      rw [h1] at h2
      simpa using h2.symm
    have hroot : ∀ x, view h x = some (k, some m) → h.root m = some x → x = a := by
      intro y hy hr
      refine Classical.byContradiction fun hya => hk ?_
      obtain ⟨ny, y1, y2, -⟩ := view_some hy
      obtain ⟨na, a1, a2, -⟩ := view_some hv
      exact ⟨y, ny, na, hr, hya, y1, a1, by rw [y2, a2]⟩
    rcases g.replace O (n := n) hv hn hroot with ⟨e, -⟩ | ⟨e, -⟩ | ⟨y, e, e', h', T', e1, e2, e3, e4⟩
    · exact absurd ⟨_, hx⟩ e
    · exact absurd (huniq a e).symm hxa
    · have := huniq y e
      subst this
      exact ⟨h', T', by simp only [perform, e1, Out.ok_bind]; rfl, e2, e4, e3⟩

theorem performAll_history (O : StrictTotal lt) {n : Nat} {cs : List (Act κ)} {rs : List Reply} {w w' : World κ}
    (hh : History w cs rs w') :
    ∀ (h : Store κ) (T : MapId → Map.Tree κ Addr), Good lt h T → view h = w → ∀ (c : Nat),
      (∀ m, (addrs (T m)).length ≤ c) → c + cs.length ≤ n → KeepsRoots lt n cs h →
      ∃ h' T', performAll lt n cs h = .ok (rs, h') ∧ Good lt h' T' ∧ view h' = w' ∧
        ∀ m, (addrs (T' m)).length ≤ n := by
  induction hh with
  | nil =>
    intro h T g hw c hc hn _
    exact ⟨h, T, rfl, g, hw, fun m => by have := hc m; simp at hn; omega⟩
  | cons s _ ih =>
    intro h T g hw c hc hn hk
    subst hw
    simp only [List.length_cons] at hn
    obtain ⟨h1, T1, e1, e2, e3, e4⟩ := perform_step O (n := n) g s (fun m => by have := hc m; omega) hk.1
    obtain ⟨h2, T2, f1, f2, f3, f4⟩ := ih h1 T1 e2 e3 (c + 1) (fun m => by have := hc m; have := e4 m; omega)
      (by omega) (hk.2 _ _ e1)
    exact ⟨h2, T2, by simp only [performAll, e1, Out.ok_bind, f1]; rfl, f2, f3, f4⟩

theorem good_noObjects : Good lt (noObjects : Store κ) (fun _ => .nil) := by
  refine ⟨fun m => ⟨rfl, trivial, by simp [addrs, paddrs]⟩, fun _ => trivial, fun _ => by simp [Map.toList, Map.Sorted], ?_, ?_⟩
  · intro a n m e; cases e
  · intro a n e; cases e

theorem history_good (O : StrictTotal lt) {n : Nat} {cs : List (Act κ)} {rs : List Reply} {w : World κ}
    (hh : History World.empty cs rs w) (hn : cs.length ≤ n) (hk : KeepsRoots lt n cs noObjects) :
    ∃ h T, performAll lt n cs noObjects = .ok (rs, h) ∧ Good lt h T ∧ view h = w ∧ ∀ m, (addrs (T m)).length ≤ n :=
  performAll_history O hh noObjects _ good_noObjects rfl 0 (by simp [addrs]) (by omega) hk

/-- Calls other than `InsertReplaceMapElement`. -/
def NoReplace (cs : List (Act κ)) : Prop := ∀ m a, .replace m a ∉ cs

theorem NoReplace.keeps {n : Nat} {cs : List (Act κ)} (h : NoReplace cs) (s : Store κ) : KeepsRoots lt n cs s := by
  induction cs generalizing s with
  | nil => trivial
  | cons c cs ih =>
    refine ⟨?_, fun r h' _ => ih (fun m a hm => h m a (List.mem_cons_of_mem _ hm)) h'⟩
    cases c <;> simp only [ReplacesRoot, not_false_eq_true]
    exact absurd (List.mem_cons_self ..) (h _ _)

/-- **C82.** After any history of allowed calls over any number of maps nothing undefined has happened, every
call has returned what the world says, every object has the key and the owner of the world, and
`FindMapElement` finds the member with the key, or nothing if there is none. -/
theorem C82_ownership (O : StrictTotal lt) {n : Nat} {cs : List (Act κ)} {rs : List Reply} {w : World κ}
    (hh : History World.empty cs rs w) (hr : NoReplace cs) (hn : cs.length ≤ n) :
    ∃ h, performAll lt n cs noObjects = .ok (rs, h) ∧
      (∀ a, keyAndOwner a h = match w a with | some v => .ok v | none => .ub) ∧
      (∀ m a k o, w a = some (k, o) → Links.member m a h = .ok (decide (o = some m))) ∧
      ∀ m k, ∃ x, Links.findMapElement lt n m k h = .ok x ∧ ∀ a, x = some a ↔ w.In m k a := by
  obtain ⟨h, T, e1, g, e2, e3⟩ := history_good O hh hn (hr.keeps _)
  subst e2
  refine ⟨h, e1, ?_, ?_, fun m k => g.find O m k (e3 m)⟩
  · intro a
    simp only [keyAndOwner, Store.get, view]
    cases h.node a <;> rfl
  · intro m a k o hv
    obtain ⟨na, ha, -, ho⟩ := view_some hv
    simp [Links.member, get_eq ha, ho]

/-- **C83.** After any such history `GetNextMapElement` of a member is the member of the same map with the least
greater key, `GetPreviousMapElement` the one with the greatest smaller key, `GetFirstMapElement` and
`GetLastMapElement` of a map are the members with the least and the greatest key; an object outside of any map
has neither a next nor a previous element. -/
theorem C83_neighbours (O : StrictTotal lt) {n : Nat} {cs : List (Act κ)} {rs : List Reply} {w : World κ}
    (hh : History World.empty cs rs w) (hr : NoReplace cs) (hn : cs.length < n) :
    ∃ h, performAll lt n cs noObjects = .ok (rs, h) ∧
      (∀ m k a, w.In m k a → ∃ x, Links.nextElement n a h = .ok x ∧ IsNext lt w m k x) ∧
      (∀ m k a, w.In m k a → ∃ x, Links.previousElement n a h = .ok x ∧ IsPrevious lt w m k x) ∧
      (∀ m, ∃ x, Links.mapFirst n m h = .ok x ∧ IsFirst lt w m x) ∧
      (∀ m, ∃ x, Links.mapLast n m h = .ok x ∧ IsLast lt w m x) ∧
      ∀ k a, w a = some (k, none) → Links.nextElement n a h = .ok none ∧ Links.previousElement n a h = .ok none := by
  obtain ⟨h, T, e1, g, e2, e3⟩ := history_good O hh (Nat.le_of_lt hn) (hr.keeps _)
  subst e2
  obtain ⟨n, rfl⟩ : ∃ n', n = n' + 1 := ⟨n - 1, by omega⟩
  exact ⟨h, e1, fun m k a hv => g.next O hv (e3 m), fun m k a hv => g.previous O hv (e3 m), fun m => g.first O m (e3 m),
    fun m => g.last O m (e3 m), fun k a hv => g.loose_next hv⟩

/-- **C85.** `PurgeMap` after any such history deletes every member of the map once and no other object;
`RemoveAllMapElements` deletes nothing and makes the members independent of any map. Afterwards nothing is found
in the map, and the other maps are as before. -/
theorem C85_purge (O : StrictTotal lt) {n : Nat} {cs : List (Act κ)} {rs : List Reply} {w : World κ}
    (hh : History World.empty cs rs w) (hr : NoReplace cs) (hn : cs.length ≤ n) (m : Nat) :
    ∃ h, performAll lt n cs noObjects = .ok (rs, h) ∧
      (∃ h', Links.purge n m h = .ok h' ∧ (∀ a, (h'.node a).isSome ↔ ∃ k o, w a = some (k, o) ∧ o ≠ some m) ∧
        (∀ a k o, w a = some (k, o) → o ≠ some m → keyAndOwner a h' = .ok (k, o)) ∧
        (∀ k, Links.findMapElement lt n m k h' = .ok none) ∧
        ∀ m' k, m' ≠ m → Links.findMapElement lt n m' k h' = Links.findMapElement lt n m' k h) ∧
      ∃ h', Links.removeAll n m h = .ok h' ∧ (∀ a k o, w a = some (k, o) →
          keyAndOwner a h' = .ok (k, if o = some m then none else o)) ∧
        (∀ k, Links.findMapElement lt n m k h' = .ok none) ∧
        ∀ m' k, m' ≠ m → Links.findMapElement lt n m' k h' = Links.findMapElement lt n m' k h := by
  obtain ⟨h, T, e1, g, e2, e3⟩ := history_good O hh hn (hr.keeps _)
  subst e2
  refine ⟨h, e1, ?_, ?_⟩
  · obtain ⟨h', p1, p2, p3⟩ := g.purge (n := n) m (e3 m)
    have hlen : ∀ x, (addrs (if x = m then (.nil : Map.Tree κ Addr) else T x)).length ≤ n := by
      intro x; split
      · simp [addrs]
      · exact e3 x
    refine ⟨h', p1, ?_, ?_, ?_, ?_⟩
    · intro a
      have hv : (h'.node a).isSome = (view h' a).isSome := by simp [view]
      rw [hv, p3]
      simp only [World.delete]
      cases view h a with
      | none => simp
      | some v =>
        obtain ⟨k, o⟩ := v
        cases o with
        | none => exact ⟨fun _ => ⟨k, none, rfl, by simp⟩, fun _ => rfl⟩
        | some m' =>
          simp only [Option.some.injEq, Prod.mk.injEq]
          split
          · next hm => simp [hm]
          · next hm => exact ⟨fun _ => ⟨k, some m', ⟨rfl, rfl⟩, by simpa using hm⟩, fun _ => rfl⟩
    · intro a k o hv ho
      have hv' : view h' a = some (k, o) := by
        rw [p3]
        simp only [World.delete, hv]
        cases o with
        | none => rfl
        | some m' =>
          have : m' ≠ m := fun hc => ho (by rw [hc])
          simp [this]
      obtain ⟨na, ha, rfl, rfl⟩ := view_some hv'
      simp [keyAndOwner, get_eq ha]
    · intro k
      obtain ⟨x, f1, f2⟩ := p2.find O (n := n) m k (hlen m)
      rw [f1]
      cases x with
      | none => rfl
      | some a =>
        have hv := (f2 a).1 rfl
        rw [← p2.mem] at hv
        simp [Map.toList] at hv
    · intro m' k hm
      obtain ⟨x, f1, f2⟩ := p2.find O (n := n) m' k (hlen m')
      obtain ⟨y, f3, f4⟩ := g.find O (n := n) m' k (e3 m')
      rw [f1, f3]
      congr 1
      have : ∀ a, x = some a ↔ y = some a := by
        intro a
        rw [f2, f4, ← p2.mem, ← g.mem]
        simp [hm]
      cases y with
      | some a => exact (this a).2 rfl
      | none =>
        cases x with
        | none => rfl
        | some a => exact ((this a).1 rfl).symm
  · obtain ⟨h', p1, p2, p3⟩ := g.removeAll (n := n) m (e3 m)
    have hlen : ∀ x, (addrs (if x = m then (.nil : Map.Tree κ Addr) else T x)).length ≤ n := by
      intro x; split
      · simp [addrs]
      · exact e3 x
    refine ⟨h', p1, ?_, ?_, ?_⟩
    · intro a k o hv
      have hv' : view h' a = some (k, if o = some m then none else o) := by
        rw [p3]
        simp only [World.release, hv]
        cases o with
        | none => rfl
        | some m' =>
          simp only [Option.some.injEq]
          split <;> rfl
      obtain ⟨na, ha, rfl, ho⟩ := view_some hv'
      simp [keyAndOwner, get_eq ha, ho]
    · intro k
      obtain ⟨x, f1, f2⟩ := p2.find O (n := n) m k (hlen m)
      rw [f1]
      cases x with
      | none => rfl
      | some a =>
        have hv := (f2 a).1 rfl
        rw [← p2.mem] at hv
        simp [Map.toList] at hv
    · intro m' k hm
      obtain ⟨x, f1, f2⟩ := p2.find O (n := n) m' k (hlen m')
      obtain ⟨y, f3, f4⟩ := g.find O (n := n) m' k (e3 m')
      rw [f1, f3]
      congr 1
      have : ∀ a, x = some a ↔ y = some a := by
        intro a
        rw [f2, f4, ← p2.mem, ← g.mem]
        simp [hm]
      cases y with
      | some a => exact (this a).2 rfl
      | none =>
        cases x with
        | none => rfl
        | some a => exact ((this a).1 rfl).symm

/-! ## Reservations -/

/-- **C84**, in full: a reservation for the key of an object can be used after any further calls, as long as the
object still exists and no member of the map has the key; then the object is found in the map, and so is every
member that was there. -/
def C84_statement (lt : κ → κ → Bool) : Prop :=
  ∀ (n m a : Nat) (k : κ) (cs ds : List (Act κ)) (rs ss : List Reply) (w w' : World κ) (o : Option Nat)
    (h h' : Store κ) (r : Reservation),
    History World.empty cs rs w → History w ds ss w' → NoReplace (cs ++ ds) → (cs ++ ds).length ≤ n →
    performAll lt n cs noObjects = .ok (rs, h) → performAll lt n ds h = .ok (ss, h') →
    Links.reserveMapElement lt n m k h = .ok (some r) → w' a = some (k, o) → (∀ x, ¬ w'.In m k x) →
    ∃ h'', Links.insertReserved n m a r h' = .ok h'' ∧
      ∀ x kx, (w'.set a (some (k, some m))).In m kx x → Links.findMapElement lt n m kx h'' = .ok (some x)

/-- **C84**, partial: a reservation that is used at once. `ReserveMapElement` fails just if the key is present,
changes nothing, and the insertion with the reservation does to the store exactly what `InsertMapElement` does. -/
theorem C84_reservation_partial (O : StrictTotal lt) {n : Nat} {cs : List (Act κ)} {rs : List Reply} {w : World κ}
    (hh : History World.empty cs rs w) (hr : NoReplace cs) (hn : cs.length ≤ n) :
    ∃ h, performAll lt n cs noObjects = .ok (rs, h) ∧ ∀ m a k o, w a = some (k, o) →
      ((∃ x, w.In m k x) ∧ Links.reserveMapElement lt n m k h = .ok none ∧
        Links.insertMapElement lt n m a h = .ok (false, h)) ∨
      ((¬ ∃ x, w.In m k x) ∧ ∃ r h', Links.reserveMapElement lt n m k h = .ok (some r) ∧
        Links.insertReserved n m a r h = .ok h' ∧ Links.insertMapElement lt n m a h = .ok (true, h')) := by
  obtain ⟨h, T, e1, g, e2, e3⟩ := history_good O hh hn (hr.keeps _)
  subst e2
  refine ⟨h, e1, ?_⟩
  intro m a k o hv
  rcases g.reserve O (n := n) hv e3 with ⟨f1, f2⟩ | f
  · rcases g.insert O (n := n) hv e3 with ⟨-, f3⟩ | ⟨f3, -⟩
    · exact .inl ⟨f1, f2, f3⟩
    · exact absurd f1 f3
  · exact .inr f

/-- The world after making objects 1, 2, 3 with keys 1, 2, 3 and inserting object 1 in map 0. -/
def threeObjects : World Nat :=
  (((World.empty.set 1 (some (1, none))).set 1 (some (1, some 0))).set 2 (some (2, none))).set 3 (some (3, none))

theorem history_threeObjects : History World.empty [.create 1 1, .insert 0 1, .create 2 2, .create 3 3]
    [.unit, .flag true, .unit, .unit] threeObjects := by
  refine .cons (.create rfl) (.cons (.insert rfl ?_) (.cons (.create rfl) (.cons (.create rfl) .nil)))
  intro x
  simp only [World.In, World.set, World.empty]
  split <;> simp

/-- **C84** is violated: a reservation for key 2, made when 1 is the only member, overwrites the pointer to the
member 3 that is inserted meanwhile; 3 is not found any more. -/
theorem C84_reservation_violated : ¬ C84_statement natLt := by
  intro hall
  have h2 : History threeObjects [.insert 0 3] [.flag true] (threeObjects.set 3 (some (3, some 0))) := by
    refine .cons (.insert rfl ?_) .nil
    intro x
    simp only [World.In, threeObjects, World.set, World.empty]
    split
    · simp
    · split
      · simp
      · split <;> simp
  obtain ⟨h'', e1, e2⟩ := hall 10 0 2 2 _ _ _ _ _ _ none _ _ ⟨some 1, 1⟩ history_threeObjects h2
    (by intro m a; simp) (by decide) rfl rfl rfl rfl (by
      intro x
      simp only [World.In, threeObjects, World.set, World.empty]
      split
      · simp
      · split
        · simp
        · split <;> simp)
  have e3 := e2 3 3 rfl
  have e4 : h''.root 0 = some 1 ∧ Links.findMapElement natLt 10 0 3 h'' = .ok none := by
    cases e1
    exact ⟨rfl, rfl⟩
  rw [e4.2] at e3
  cases e3

/-! ## Replacing -/

/-- **C86**, in full: no history of allowed calls, `InsertReplaceMapElement` included, does anything undefined. -/
def C86_statement (lt : κ → κ → Bool) : Prop :=
  ∀ (n : Nat) (cs : List (Act κ)) (rs : List Reply) (w : World κ), History World.empty cs rs w → cs.length ≤ n →
    ∃ h, performAll lt n cs noObjects = .ok (rs, h)

/-- **C86**, partial: if no call replaces the root of a map, nothing undefined happens, the calls return what the
world says (in particular `InsertReplaceMapElement` returns the object that was replaced), and the objects have
the keys and owners of the world and are found. -/
theorem C86_replace_partial (O : StrictTotal lt) {n : Nat} {cs : List (Act κ)} {rs : List Reply} {w : World κ}
    (hh : History World.empty cs rs w) (hn : cs.length ≤ n) (hk : KeepsRoots lt n cs noObjects) :
    ∃ h, performAll lt n cs noObjects = .ok (rs, h) ∧
      (∀ a, keyAndOwner a h = match w a with | some v => .ok v | none => .ub) ∧
      ∀ m k, ∃ x, Links.findMapElement lt n m k h = .ok x ∧ ∀ a, x = some a ↔ w.In m k a := by
  obtain ⟨h, T, e1, g, e2, e3⟩ := history_good O hh hn hk
  subst e2
  refine ⟨h, e1, ?_, fun m k => g.find O m k (e3 m)⟩
  intro a
  simp only [keyAndOwner, Store.get, view]
  cases h.node a <;> rfl

/-- **C86** is violated: the root of a map is replaced, the caller deletes the object that was replaced, and the map
still refers to it. -/
theorem C86_replace_violated : ¬ C86_statement natLt := by
  intro hall
  obtain ⟨h, e⟩ := hall 10 [.create 1 5, .insert 0 1, .create 2 5, .replace 0 2, .destroy 1, .purge 0]
    [.unit, .flag true, .unit, .element (some 1), .unit, .unit] _ (by
      refine .cons (.create rfl) (.cons (.insert rfl ?_) (.cons (.create rfl)
        (.cons (.replaceOther (x := 1) rfl rfl (by decide)) (.cons (.destroy rfl) (.cons .purge .nil)))))
      intro x
      simp only [World.In, World.set, World.empty]
      split <;> simp) (by decide)
  have : performAll natLt 10 [.create 1 5, .insert 0 1, .create 2 5, .replace 0 2, .destroy 1, .purge 0] noObjects =
      .ub := rfl
  rw [this] at e
  cases e

/-! ## Examples -/

/-- Ten objects; the first seven are put in map 0, then objects 2 and 5 move to map 1, 4 is deleted, 7 is detached. -/
def sampleActs : List (Act Nat) :=
  (List.range 10).map (fun i => .create i (10 * i)) ++ (List.range 7).map (fun i => .insert 0 i) ++
    [.insert 1 2, .insert 1 5, .destroy 4, .detach 6, .remove 1 5, .reserveInsert 0 9]

/-- Run the sample, then ask. -/
def afterSample (q : Store Nat → Out α) : Out α := do
  let (_, h) ← performAll natLt 50 sampleActs noObjects
  q h

example : (do return (← performAll natLt 50 sampleActs noObjects).1.drop 10 : Out (List Reply)) =
    .ok ([.flag true, .flag true, .flag true, .flag true, .flag true, .flag true, .flag true, .flag true, .flag true,
      .unit, .unit, .unit, .flag true]) := by decide
example : afterSample (Links.findMapElement natLt 50 0 30) = .ok (some 3) := by decide
example : afterSample (Links.findMapElement natLt 50 0 20) = .ok none := by decide
example : afterSample (Links.findMapElement natLt 50 1 20) = .ok (some 2) := by decide
example : afterSample (keyAndOwner 2) = .ok (20, some 1) := by decide
example : afterSample (keyAndOwner 4) = .ub := by decide
example : afterSample (Links.member 0 6) = .ok false := by decide
example : afterSample (Links.nextElement 50 3) = .ok (some 9) := by decide
example : afterSample (Links.previousElement 50 3) = .ok (some 1) := by decide
example : afterSample (Links.previousElement 50 0) = .ok none := by decide
example : afterSample (Links.mapFirst 50 0) = .ok (some 0) := by decide
example : afterSample (Links.mapLast 50 0) = .ok (some 9) := by decide
example : afterSample (fun h => do keyAndOwner 3 (← Links.purge 50 0 h)) = .ub := by decide
example : afterSample (fun h => do keyAndOwner 2 (← Links.purge 50 0 h)) = .ok (20, some 1) := by decide
example : afterSample (fun h => do keyAndOwner 3 (← Links.removeAll 50 0 h)) = .ok (30, none) := by decide
-- deleting an object a second time is undefined
example : afterSample (fun h => do keyAndOwner 3 (← Links.destroy 50 4 h)) = .ub := by decide
example : afterSample (Links.reserveMapElement natLt 50 0 35) = .ok (some ⟨some 9, -1⟩) := by decide
example : afterSample (Links.reserveMapElement natLt 50 0 30) = .ok none := by decide
-- replacing below the root works
example : afterSample (fun h => do
    let (r, h) ← perform natLt 50 (.replace 0 11) (Links.create 11 30 h)
    return (r, ← keyAndOwner 3 h, ← keyAndOwner 11 h, ← Links.findMapElement natLt 50 0 30 h)) =
    .ok (.element (some 3), (30, none), (30, some 0), some 11) := by decide
example : History World.empty [.create 7 1, .insert 0 7, .destroy 7] [.unit, .flag true, .unit]
    (((World.empty.set 7 (some (1, none))).set 7 (some (1, some 0))).set 7 none) :=
  .cons (.create rfl) (.cons (.insert rfl (by intro x; simp only [World.In, World.set, World.empty]; split <;> simp))
    (.cons (.destroy rfl) .nil))

end Verif.Props
