import Verif.Mem.McacheProps

/-!
# Who owns which memory: lists of blocks that never overlap, and moving blocks between owners
-/

namespace NRK.Machine

open NRK.Mem NRK.Mem.Spec

/-- The memory of different owners does not overlap, nor do the blocks of one owner. -/
structure Sep {ι : Type} (B : ι → List Block) : Prop where
  self : ∀ o, AllDisjoint (B o)
  other : ∀ o o', o ≠ o' → ∀ b ∈ B o, ∀ b' ∈ B o', Disjoint b b'

theorem pairwise_all {α : Type} {R : α → α → Prop} (hs : ∀ a b, R a b → R b a) :
    ∀ {l : List α}, l.Pairwise R → ∀ a ∈ l, ∀ b ∈ l, a ≠ b → R a b := by
  intro l
  induction l with
  | nil => intro _ a ha; cases ha
  | cons x xs ih =>
    intro h a ha b hb hne
    rw [List.pairwise_cons] at h
    rcases List.mem_cons.1 ha with rfl | ha' <;> rcases List.mem_cons.1 hb with rfl | hb'
    · exact absurd rfl hne
    · exact h.1 _ hb'
    · exact hs _ _ (h.1 _ ha')
    · exact ih h.2 a ha' b hb' hne

/-- Blocks move between the owners in `os`, some may get lost. -/
theorem Sep.move {ι : Type} {B B' : ι → List Block} (h : Sep B) (os : List ι) (hos : os.Nodup)
    (hout : ∀ o, o ∉ os → B' o = B o) (lost : List Block)
    (hp : (os.flatMap B' ++ lost).Perm (os.flatMap B)) : Sep B' := by
  have hall : AllDisjoint (os.flatMap B) := by
    unfold AllDisjoint
    rw [List.pairwise_flatMap]
    refine ⟨fun o _ => h.self o, ?_⟩
    exact List.Pairwise.imp (fun {a b} hne => fun x hx y hy => h.other a b hne x hx y hy) hos
  have hall' : AllDisjoint (os.flatMap B') :=
    allDisjoint_sublist (allDisjoint_perm hall hp.symm) (List.sublist_append_left _ _)
  have hmem : ∀ o ∈ os, ∀ b ∈ B' o, ∃ o' ∈ os, b ∈ B o' := by
    intro o ho b hb
    have : b ∈ os.flatMap B := hp.subset (List.mem_append_left _ (List.mem_flatMap.2 ⟨o, ho, hb⟩))
    exact List.mem_flatMap.1 this
  unfold AllDisjoint at hall'
  rw [List.pairwise_flatMap] at hall'
  constructor
  · intro o
    by_cases ho : o ∈ os
    · exact hall'.1 o ho
    · rw [hout o ho]; exact h.self o
  · intro o o' hne b hb b' hb'
    by_cases ho : o ∈ os <;> by_cases ho' : o' ∈ os
    · exact pairwise_all (R := fun a b => ∀ x ∈ B' a, ∀ y ∈ B' b, Disjoint x y)
        (fun a b hab x hx y hy => (hab y hy x hx).symm) hall'.2 o ho o' ho' hne b hb b' hb'
    · rw [hout o' ho'] at hb'
      obtain ⟨o1, h1, h2⟩ := hmem o ho b hb
      exact h.other o1 o' (fun e => ho' (e ▸ h1)) b h2 b' hb'
    · rw [hout o ho] at hb
      obtain ⟨o1, h1, h2⟩ := hmem o' ho' b' hb'
      exact h.other o o1 (fun e => ho (e ▸ h1)) b hb b' h2
    · rw [hout o ho] at hb
      rw [hout o' ho'] at hb'
      exact h.other o o' hne b hb b' hb'

/-- Owners keep what they have. -/
theorem Sep.congr {ι : Type} {B B' : ι → List Block} (h : Sep B) (he : ∀ o, B' o = B o) : Sep B' := by
  have : B' = B := funext he
  rw [this]; exact h

/-- A block belongs to one owner only. -/
theorem Sep.unique {ι : Type} {B : ι → List Block} (h : Sep B) {o o' : ι} {b b' : Block} {p : Nat}
    (hb : b ∈ B o) (hb' : b' ∈ B o') (h1 : b.Has p) (h2 : b'.Has p) : o = o' := by
  apply Classical.byContradiction
  intro hne
  exact h.other o o' hne b hb b' hb' p ⟨h1, h2⟩

end NRK.Machine
