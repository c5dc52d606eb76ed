import Mathlib.Algebra.BigOperators.Group.List.Basic
import Verif.Py.Fl
import Verif.Lemmas.CrpGibbs

/-!
# Sums of log-probabilities (helpers)
-/

namespace Cgpm2
namespace Fl

theorem fin_add (a b : ℝ) : (Fl.fin a + Fl.fin b) = Fl.fin (a + b) := rfl
theorem zero_def : (0 : Fl) = .fin 0 := rfl

theorem add_comm' (a b : Fl) : a + b = b + a := by
  change add a b = add b a
  cases a <;> cases b <;> simp [add, _root_.add_comm]

theorem add_assoc' (a b c : Fl) : a + b + c = a + (b + c) := by
  change add (add a b) c = add a (add b c)
  cases a <;> cases b <;> cases c <;> simp [add, _root_.add_assoc]

theorem zero_add' (a : Fl) : 0 + a = a := by
  change add (.fin 0) a = a
  cases a <;> simp [add]

noncomputable instance : AddCommMonoid Fl where
  add_assoc := add_assoc'
  zero_add := zero_add'
  add_zero a := by rw [add_comm', zero_add']
  add_comm := add_comm'
  nsmul := nsmulRec

theorem foldl_eq (l : List Fl) (a : Fl) : l.foldl (· + ·) a = a + l.sum := by
  induction l generalizing a with
  | nil => simp
  | cons b l ih => simp [ih, add_assoc]

theorem sum_eq (l : List Fl) : Fl.sum l = l.sum := by
  rw [Fl.sum, foldl_eq, zero_add]

theorem add_fin_iff (a b : Fl) : (∃ x, a + b = .fin x) ↔ (∃ x, a = .fin x) ∧ ∃ y, b = .fin y := by
  change (∃ x, add a b = _) ↔ _
  cases a <;> cases b <;> simp [add]

theorem sum_fin_iff (l : List Fl) : (∃ x, Fl.sum l = .fin x) ↔ ∀ y ∈ l, ∃ x, y = .fin x := by
  rw [sum_eq]
  induction l with
  | nil => simp [zero_def]
  | cons a l ih => simp [add_fin_iff, ih]

end Fl

/-- The first exception of a `mapM` into `Except`, or the list of results. -/
theorem mapM_ok_iff {α β : Type} (f : α → Except Err β) (l : List α) (r : List β) :
    l.mapM f = .ok r ↔ List.Forall₂ (fun a b => f a = .ok b) l r := by
  induction l generalizing r with
  | nil => simp [pure, Except.pure, eq_comm]
  | cons a l ih =>
    rw [List.mapM_cons]
    rcases h : f a with e | b
    · simp only [bind, Except.bind, reduceCtorEq, false_iff]
      intro hh; cases hh; simp_all
    · rcases hl : l.mapM f with e | bs
      · simp only [bind, Except.bind, reduceCtorEq, false_iff]
        intro hh
        cases hh with
        | cons h1 h2 => rw [← ih, hl] at h2; cases h2
      · simp only [bind, Except.bind, pure, Except.pure, Except.ok.injEq]
        constructor
        · rintro rfl
          exact .cons h ((ih bs).1 hl)
        · intro hh
          cases hh with
          | cons h1 h2 =>
            rw [h] at h1; cases h1
            rw [← ih, hl] at h2; cases h2; rfl

theorem mapM_congr' {α α' β : Type} (f : α → Except Err β) (f' : α' → Except Err β) {l : List α}
    {l' : List α'} (h : List.Forall₂ (fun a a' => f a = f' a') l l') : l.mapM f = l'.mapM f' := by
  induction h with
  | nil => rfl
  | cons h _ ih => rw [List.mapM_cons, List.mapM_cons, h, ih]

/-- A sum of scores is a number exactly when each of them is. -/
theorem sumScore_fin_iff {α : Type} (f : α → Except Err Fl) (l : List α) :
    (∃ x : ℝ, (do let r ← l.mapM f; pure (Fl.sum r) : Except Err Fl) = .ok (.fin x)) ↔
      ∀ a ∈ l, ∃ x : ℝ, f a = .ok (.fin x) := by
  constructor
  · rintro ⟨x, hx⟩ a ha
    rcases hr : l.mapM f with e | r
    · rw [hr] at hx; cases hx
    · rw [hr] at hx
      simp only [bind, Except.bind, pure, Except.pure, Except.ok.injEq] at hx
      have h1 := (Fl.sum_fin_iff r).1 ⟨x, hx⟩
      have h2 := (mapM_ok_iff f l r).1 hr
      obtain ⟨i, hi, rfl⟩ := List.getElem_of_mem ha
      have hi' : i < r.length := h2.length_eq ▸ hi
      obtain ⟨y, hy⟩ := h1 _ (List.getElem_mem hi')
      exact ⟨y, by rw [← hy]; exact h2.get hi hi'⟩
  · classical
    intro h
    have : l.mapM f = .ok (l.map fun a => if h : ∃ x : ℝ, f a = .ok (.fin x) then
        Fl.fin h.choose else 0) := by
      apply mapM_ok
      intro a ha
      rw [dif_pos (h a ha)]
      exact (h a ha).choose_spec
    rw [this]
    simp only [bind, Except.bind, pure, Except.pure, Except.ok.injEq]
    apply (Fl.sum_fin_iff _).2
    intro y hy
    obtain ⟨a, ha, rfl⟩ := List.mem_map.1 hy
    rw [dif_pos (h a ha)]
    exact ⟨_, rfl⟩

end Cgpm2
