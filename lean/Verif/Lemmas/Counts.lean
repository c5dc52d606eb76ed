import Verif.Lemmas.ViewTotal
import Verif.Lemmas.Hypers

/-!
# How many random numbers are used (helpers)
-/

namespace Cgpm2.Views
open Spec

theorem permuteN_within {α : Type} : ∀ (n : Nat) (l : List α) (g : Rng), Within n g (permuteN n l g).2
  | 0, _, g => .refl 0 g
  | n + 1, l, g => by
    have h1 : Within 1 g g.uniform.2 := Within.next g
    unfold permuteN
    dsimp only
    rcases l[⌊g.uniform.1 * (n + 2 : ℝ)⌋.toNat]? with _ | a
    · exact h1.mono (by omega)
    · have h2 := permuteN_within n (l.eraseIdx ⌊g.uniform.1 * (n + 2 : ℝ)⌋.toNat) g.uniform.2
      dsimp only
      rcases h3 : permuteN n (l.eraseIdx ⌊g.uniform.1 * (n + 2 : ℝ)⌋.toNat) g.uniform.2 with ⟨_ | xs, g'⟩ <;>
        (rw [h3] at h2; exact (h1.trans h2).mono (by omega))

theorem permutation_within {α : Type} (l : List α) (g : Rng) : Within l.length g (permutation l g).2 :=
  (permuteN_within _ l g).mono (by omega)

/-- The computation uses at most `n` random numbers. -/
def Uses {T α : Type} (n : Nat) (m : Py (T × Rng) α) : Prop := ∀ s g, Within n g (m (s, g)).2.2

namespace Uses
variable {T α β : Type} {n k : Nat}

theorem mono {m : Py (T × Rng) α} (h : Uses n m) (hk : n ≤ k) : Uses k m := fun s g => (h s g).mono hk

theorem bind {m : Py (T × Rng) α} {f : α → Py (T × Rng) β} (h1 : Uses n m) (h2 : ∀ a, Uses k (f a)) :
    Uses (n + k) (m >>= f) := by
  intro s g
  have := h1 s g
  rw [Py.bind_apply]
  rcases h : m (s, g) with ⟨_ | a, s', g'⟩
  · rw [h] at this; exact this.mono (by omega)
  · rw [h] at this; exact this.trans (h2 a s' g')

theorem still {m : Py (T × Rng) α} (h : ∀ s g, (m (s, g)).2.2 = g) : Uses 0 m := fun s g => by
  rw [h]; exact .refl 0 g

theorem mapL {f : α → Py (T × Rng) β} (hf : ∀ a, Uses 0 (f a)) : ∀ l : List α, Uses 0 (Py.mapL f l)
  | [] => still fun _ _ => rfl
  | a :: l => by
    unfold Py.mapL
    exact (hf a).bind fun _ => (mapL hf l).bind fun _ => still fun _ _ => rfl

theorem each {m : Py (T × Rng) α} (hm : Uses 0 m) : Uses 0 (Py.each m) := by
  intro l
  induction l with
  | nil => intro g; exact .refl 0 g
  | cons a l ih =>
    intro g
    have h1 := hm a g
    rw [Py.each_cons]
    rcases h : m (a, g) with ⟨_ | x, a', g'⟩
    · rw [h] at h1
      exact h1
    · rw [h] at h1
      have h2 := ih g'
      dsimp only
      rcases h' : Py.each m (l, g') with ⟨_ | xs, l', g''⟩ <;>
        (rw [h'] at h2; exact h1.trans h2)

theorem onSnd {m : Py Rng α} (h : ∀ g, Within n g (m g).2) : Uses n (Py.onSnd m : Py (T × Rng) α) :=
  fun _ g => h g

end Uses

theorem transitionHyper_uses (grids : Dict String (List ℝ)) (hy : Dict String ℝ) (name : String) :
    Uses 1 (transitionHyper grids hy name) := by
  unfold transitionHyper
  refine (Uses.bind (n := 0) (k := 1) (.still fun _ _ => rfl) fun grid => ?_).mono (by omega)
  refine (Uses.bind (n := 0) (k := 1) (.mapL (fun v => ?_) _) fun logps => ?_).mono (by omega)
  · refine Uses.bind (n := 0) (k := 0) (.each ?_) fun _ => .still fun _ _ => rfl
    unfold setAndScore
    exact Uses.bind (n := 0) (k := 0) (.still fun _ _ => rfl) fun _ =>
      Uses.bind (n := 0) (k := 0) (.still fun _ _ => rfl) fun _ => .still fun _ _ => rfl
  · refine (Uses.bind (n := 1) (k := 0) (.onSnd fun g => logPflip_within logps g) fun i => ?_)
    rcases grid[i]? with _ | x
    · exact .still fun _ _ => rfl
    · exact .still fun _ _ => rfl

theorem transitionHypersLoop_uses (grids : Dict String (List ℝ)) : ∀ (l : List String) (hy : Dict String ℝ),
    Uses l.length (transitionHypersLoop grids l hy)
  | [], _ => .still fun _ _ => rfl
  | n :: l, hy => by
    unfold transitionHypersLoop
    exact ((transitionHyper_uses grids hy n).bind fun h => transitionHypersLoop_uses grids l h).mono
      (by rw [List.length_cons]; omega)

theorem getHypers_length {p : Prim} (hp : p.kind ≠ .normalUC) : (Dict.keys p.getHypers).length ≤ 4 := by
  cases p
  case normalUC => exact absurd rfl hp
  all_goals simp [Prim.getHypers, Dict.keys, Crp.getHypers, Categorical.getHypers, Bernoulli.getHypers, Normal.getHypers,
    Poisson.getHypers]

theorem transitionHypers_within (grids : Dict String (List ℝ)) {ps : List Prim}
    (hp : ∀ p ∈ ps, p.kind ≠ .normalUC) (g : Rng) :
    Within 8 g (transitionHypers grids (ps, g)).2.2 := by
  unfold transitionHypers
  rw [Py.get_bind]
  dsimp only
  by_cases hc : sameClass ps
  swap
  · rw [Py.assert_bind_neg hc]; exact .refl _ g
  rw [Py.assert_bind_pos hc]
  cases ps with
  | nil => exact .refl _ g
  | cons p ps =>
    dsimp only
    have hl := getHypers_length (hp p List.mem_cons_self)
    have h1 := permutation_within (Dict.keys p.getHypers) g
    rw [Py.bind_apply]
    simp only [Py.onSnd]
    obtain ⟨l', g', e0, hperm⟩ := permutation_ok (Dict.keys p.getHypers) g
    rw [e0] at h1 ⊢
    dsimp only
    have h2 : Uses (l'.length + 0) (do
        let hyperparams ← transitionHypersLoop grids l' p.getHypers
        let _ ← Py.each (Py.onFst (Prim.setHypers hyperparams))
        pure hyperparams : Py (List Prim × Rng) _) :=
      (transitionHypersLoop_uses grids l' _).bind fun _ =>
        Uses.bind (n := 0) (k := 0) (.each (.still fun _ _ => rfl)) fun _ => .still fun _ _ => rfl
    have h3 := hperm.length_eq
    exact (h1.trans (h2 _ _)).mono (by omega)

end Cgpm2.Views
