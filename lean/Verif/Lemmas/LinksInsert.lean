import Verif.Lemmas.Links

/-!
# Inserting into the linked map follows the tree model
-/

namespace Verif.Links

open Verif.Map (Tree Path Frame Dir plug plug1)

variable {κ : Type}

theorem rotateLeft_ref {h : Store κ} {m : MapId} {p : Path κ Addr} {t t' : Tree κ Addr} {v : Addr}
    (z : Zip h m p t) (e : Map.rotateLeft t = some t') (hv : ptr t = some v) :
    ∃ h' a, rotateLeft m v h = .ok (a, h') ∧ ptr t' = some a ∧ Zip h' m p t' ∧
      Same m (addrs t ++ paddrs p) h h' := by
  unfold Map.rotateLeft at e
  split at e
  · cases e
    simp only [ptr_node, Option.some.injEq] at hv
    subst hv
    obtain ⟨h', e1, e2, e3⟩ := rotateLeft_spec z
    exact ⟨h', _, e1, rfl, e2, e3⟩
  · cases e

theorem rotateRight_ref {h : Store κ} {m : MapId} {p : Path κ Addr} {t t' : Tree κ Addr} {v : Addr}
    (z : Zip h m p t) (e : Map.rotateRight t = some t') (hv : ptr t = some v) :
    ∃ h' a, rotateRight m v h = .ok (a, h') ∧ ptr t' = some a ∧ Zip h' m p t' ∧
      Same m (addrs t ++ paddrs p) h h' := by
  unfold Map.rotateRight at e
  split at e
  · cases e
    simp only [ptr_node, Option.some.injEq] at hv
    subst hv
    obtain ⟨h', e1, e2, e3⟩ := rotateRight_spec z
    exact ⟨h', _, e1, rfl, e2, e3⟩
  · cases e

theorem zigZagLeft_ref {h : Store κ} {m : MapId} {p : Path κ Addr} {t t' : Tree κ Addr} {v : Addr}
    (z : Zip h m p t) (e : Map.zigZagLeft t = some t') (hv : ptr t = some v) :
    ∃ h' a, zigZagLeft m v h = .ok (a, h') ∧ ptr t' = some a ∧ Zip h' m p t' ∧
      Same m (addrs t ++ paddrs p) h h' := by
  unfold Map.zigZagLeft at e
  split at e
  · cases e
    simp only [ptr_node, Option.some.injEq] at hv
    subst hv
    obtain ⟨h', e1, e2, e3⟩ := zigZagLeft_spec z
    exact ⟨h', _, e1, rfl, e2, e3⟩
  · cases e

theorem zigZagRight_ref {h : Store κ} {m : MapId} {p : Path κ Addr} {t t' : Tree κ Addr} {v : Addr}
    (z : Zip h m p t) (e : Map.zigZagRight t = some t') (hv : ptr t = some v) :
    ∃ h' a, zigZagRight m v h = .ok (a, h') ∧ ptr t' = some a ∧ Zip h' m p t' ∧
      Same m (addrs t ++ paddrs p) h h' := by
  unfold Map.zigZagRight at e
  split at e
  · cases e
    simp only [ptr_node, Option.some.injEq] at hv
    subst hv
    obtain ⟨h', e1, e2, e3⟩ := zigZagRight_spec z
    exact ⟨h', _, e1, rfl, e2, e3⟩
  · cases e

/-- The side of a position, seen from its `superNode`. -/
theorem frame_left {h : Store κ} {m : MapId} {f : Frame κ Addr} {p : Path κ Addr} {t : Tree κ Addr} {a : Addr}
    (z : Zip h m (f :: p) t) (ha : a ∈ addrs t) (c : Option Addr) (hc : c = some a) :
    (frameNode m f (supOf p) c).left = some a ↔ f.dir = .L := by
  obtain ⟨d, b, k, v, s⟩ := f
  have hn := z.nodup
  simp only [paddrs, List.nodup_append, List.mem_cons, List.mem_append] at hn
  cases d
  · simp [frameNode, hc]
  · simp only [frameNode, reduceCtorEq, iff_false]
    intro e
    exact hn.2.2 a ha a (Or.inr (Or.inl (ptr_mem e))) rfl

/-- Changing the balance of the nearest ancestor. -/
theorem zip_balance {h : Store κ} {m : MapId} {f : Frame κ Addr} {p : Path κ Addr} {t : Tree κ Addr} (b : Int)
    (z : Zip h m (f :: p) t) (g : Node κ → Node κ)
    (hg : g (frameNode m f (supOf p) (ptr t)) = { frameNode m f (supOf p) (ptr t) with balance := b }) :
    ∃ h', h.mod f.val g = .ok h' ∧
      h'.node f.val = some { frameNode m f (supOf p) (ptr t) with balance := b } ∧
      Zip h' m p (plug1 { f with balance := b } t) ∧ Same m [f.val] h h' := by
  obtain ⟨⟨e1, e2, e3⟩, e4, hn⟩ := z
  obtain ⟨h', i1, i2, i3, i4⟩ := mod_spec e1 g
  rw [hg] at i2
  have hn' := hn
  simp only [paddrs, List.nodup_append, List.nodup_cons, List.mem_cons, List.mem_append] at hn
  refine ⟨h', i1, i2, (zip_step _ _ _ _ _).1 ⟨⟨?_, e2.congr ?_, ?_⟩, e4.congr ?_, hn'⟩, ⟨?_, fun x _ => by rw [i4]⟩⟩
  · rw [i2]; obtain ⟨d, b, k, v, s⟩ := f; cases d <;> rfl
  · intro a ha; exact i3 a (by grind)
  · rw [i4]; exact e3.congr fun a ha => i3 a (by grind)
  · intro a ha; exact i3 a (by grind)
  · intro a ha; exact i3 a (by simpa using ha)

/-- Directions in the code. -/
def dirInt : Dir → Int
  | .L => -1
  | .R => 1

theorem insertClimb_cons (d1 : Dir) (f : Frame κ Addr) (p : Path κ Addr) (t : Tree κ Addr) :
    Map.insertClimb d1 (f :: p) t =
      if f.balance + dirInt f.dir = 0 then
        some (plug p (plug1 { f with balance := f.balance + dirInt f.dir } t))
      else if (f.balance + dirInt f.dir).natAbs = 2 then
        (match f.dir, d1 with
          | .L, .L => Map.rotateRight (plug1 { f with balance := f.balance + dirInt f.dir } t)
          | .L, .R => Map.zigZagRight (plug1 { f with balance := f.balance + dirInt f.dir } t)
          | .R, .R => Map.rotateLeft (plug1 { f with balance := f.balance + dirInt f.dir } t)
          | .R, .L => Map.zigZagLeft (plug1 { f with balance := f.balance + dirInt f.dir } t)).map (plug p)
      else Map.insertClimb f.dir p (plug1 { f with balance := f.balance + dirInt f.dir } t) := by
  obtain ⟨d, b, k, v, s⟩ := f
  cases d <;> cases d1 <;> rfl

theorem insertLoop_spec (p : Path κ Addr) :
    ∀ (n : Nat) (h : Store κ) (m : MapId) (d1 : Dir) (t t' : Tree κ Addr) (v : Addr), p.length < n →
      Zip h m p t → ptr t = some v → Map.insertClimb d1 p t = some t' →
      ∃ h', insertLoop m n (dirInt d1) v h = .ok h' ∧ Zip h' m [] t' ∧ Same m (addrs t ++ paddrs p) h h' := by
  induction p with
  | nil =>
    intro n h m d1 t t' v hn z hv e
    cases t with
    | nil => cases hv
    | node tb tl tk tv tr =>
      obtain ⟨zp, ⟨e1, e2, e3⟩, zn⟩ := z
      cases hv
      cases e
      cases n with
      | zero => simp at hn
      | succ n => exact ⟨h, by simp [insertLoop, get_eq e1], ⟨zp, ⟨e1, e2, e3⟩, zn⟩, Same.refl _ _ _⟩
  | cons f p ih =>
    intro n h m d1 t t' v hn z hv e
    have hmem := ptr_mem hv
    cases t with
    | nil => cases hv
    | node tb tl tk tv tr =>
      cases hv
      cases n with
      | zero => simp at hn
      | succ n =>
        have z0 := z
        obtain ⟨⟨f1, f2, f3⟩, ⟨e1, e2, e3⟩, zn⟩ := z
        have hl := frame_left z0 hmem _ rfl
        have hb : (frameNode m f (supOf p) (some v)).balance = f.balance := by
          obtain ⟨d, b, k, v, s⟩ := f; cases d <;> rfl
        obtain ⟨h1, i1, i2, i3, i4⟩ := zip_balance (f.balance + dirInt f.dir) z0
          (fun n => { n with balance := f.balance + dirInt f.dir }) rfl
        have hd : (if f.dir = Dir.L then (-1 : Int) else 1) = dirInt f.dir := by cases f.dir <;> rfl
        simp only [insertLoop, get_eq e1, supOf_cons, get_eq f1, ptr_node, hl, hb, hd, Out.ok_bind, i1]
        rw [insertClimb_cons] at e
        have hmono : ∀ x ∈ addrs (plug1 { f with balance := f.balance + dirInt f.dir } (.node tb tl tk v tr)) ++
            paddrs p, x ∈ addrs (.node tb tl tk v tr) ++ paddrs (f :: p) := by
          intro x hx
          simp only [List.mem_append, mem_addrs_plug1, paddrs, List.mem_cons] at hx ⊢
          grind
        have hsame : Same m (addrs (.node tb tl tk v tr) ++ paddrs (f :: p)) h h1 :=
          i4.mono (by intro x hx; simp [paddrs] at hx ⊢; grind)
        have hptr : ptr (plug1 { f with balance := f.balance + dirInt f.dir } (.node tb tl tk v tr)) = some f.val :=
          ptr_plug1 _ _
        generalize hT : plug1 { f with balance := f.balance + dirInt f.dir } (.node tb tl tk v tr) = T at *
        by_cases h0 : f.balance + dirInt f.dir = 0
        · simp only [h0, if_true] at e ⊢
          cases e
          exact ⟨h1, rfl, (zip_plug _ _ _ _).1 i3, hsame⟩
        · simp only [h0, if_false] at e ⊢
          by_cases h2 : (f.balance + dirInt f.dir).natAbs = 2
          · simp only [h2, if_true] at e ⊢
            cases hd2 : f.dir <;> cases d1 <;> simp only [hd2, Option.map_eq_some_iff] at e <;>
              obtain ⟨t2, r1, r2⟩ := e <;> subst r2
            · obtain ⟨h', a, s1, s2, s3, s4⟩ := rotateRight_ref i3 r1 hptr
              exact ⟨h', by simp [dirInt, s1, Functor.map, Out.bind], (zip_plug _ _ _ _).1 s3,
                hsame.trans (s4.mono hmono)⟩
            · obtain ⟨h', a, s1, s2, s3, s4⟩ := zigZagRight_ref i3 r1 hptr
              exact ⟨h', by simp [dirInt, s1, Functor.map, Out.bind], (zip_plug _ _ _ _).1 s3,
                hsame.trans (s4.mono hmono)⟩
            · obtain ⟨h', a, s1, s2, s3, s4⟩ := zigZagLeft_ref i3 r1 hptr
              exact ⟨h', by simp [dirInt, s1, Functor.map, Out.bind], (zip_plug _ _ _ _).1 s3,
                hsame.trans (s4.mono hmono)⟩
            · obtain ⟨h', a, s1, s2, s3, s4⟩ := rotateLeft_ref i3 r1 hptr
              exact ⟨h', by simp [dirInt, s1, Functor.map, Out.bind], (zip_plug _ _ _ _).1 s3,
                hsame.trans (s4.mono hmono)⟩
          · simp only [h2, if_false] at e ⊢
            obtain ⟨h', s1, s2, s3⟩ := ih n h1 m f.dir T t' f.val (by simp at hn; omega) i3 hptr e
            exact ⟨h', s1, s2, hsame.trans (s3.mono hmono)⟩

end Verif.Links
