import Mathlib.LinearAlgebra.Matrix.SchurComplement
import Mathlib.Analysis.Matrix.PosDef
import Mathlib.Algebra.Order.Star.Real
import Verif.Model.LinReg

/-! The algebra behind the conjugate linear regression: adding one row to the data. -/

namespace Cgpm2.LinReg

open Matrix

variable {p : Nat}

theorem gram_nil : gram ([] : List (Fin p → ℝ)) = 0 := by
  ext i j; simp [gram]

theorem gram_append (X : List (Fin p → ℝ)) (r : Fin p → ℝ) :
    gram (X ++ [r]) = gram X + vecMulVec r r := by
  ext i j; simp [gram, vecMulVec_apply]

theorem cross_nil : cross ([] : List (Fin p → ℝ)) [] = 0 := by
  ext i; simp [cross]

theorem cross_append (X : List (Fin p → ℝ)) (y : List ℝ) (h : X.length = y.length)
    (r : Fin p → ℝ) (x : ℝ) : cross (X ++ [r]) (y ++ [x]) = cross X y + x • r := by
  ext i
  simp [cross, List.zipWith_append h, mul_comm]

theorem sumSq_append (y : List ℝ) (x : ℝ) : sumSq (y ++ [x]) = sumSq y + x * x := by
  simp [sumSq]

theorem posSemidef_vecMulVec (r : Fin p → ℝ) : (vecMulVec r r).PosSemidef := by
  simpa using posSemidef_vecMulVec_self_star r

theorem gram_posSemidef (X : List (Fin p → ℝ)) : (gram X).PosSemidef := by
  induction X using List.reverseRecOn with
  | nil => rw [gram_nil]; exact PosSemidef.zero
  | append_singleton X r ih => rw [gram_append]; exact ih.add (posSemidef_vecMulVec r)

/-- The quadratic form of the inverse is nonnegative. -/
theorem inv_form_nonneg {A : Matrix (Fin p) (Fin p) ℝ} (hA : A.PosDef) (r : Fin p → ℝ) :
    0 ≤ r ⬝ᵥ A⁻¹ *ᵥ r := by
  simpa using hA.inv.posSemidef.dotProduct_mulVec_nonneg r

theorem det_ne {A : Matrix (Fin p) (Fin p) ℝ} (hA : A.PosDef) : IsUnit A.det :=
  isUnit_iff_ne_zero.2 hA.det_pos.ne'

theorem inv_symm {A : Matrix (Fin p) (Fin p) ℝ} (hA : A.PosDef) : (A⁻¹)ᵀ = A⁻¹ := by
  have := hA.inv.isHermitian.eq
  rwa [conjTranspose_eq_transpose_of_trivial] at this

theorem form_symm {A : Matrix (Fin p) (Fin p) ℝ} (hA : A.PosDef) (r u : Fin p → ℝ) :
    r ⬝ᵥ A⁻¹ *ᵥ u = u ⬝ᵥ A⁻¹ *ᵥ r := by
  rw [dotProduct_comm, ← inv_symm hA, mulVec_transpose, ← dotProduct_mulVec, inv_symm hA]

theorem det_rank_one {A : Matrix (Fin p) (Fin p) ℝ} (hA : A.PosDef) (r : Fin p → ℝ) :
    (A + vecMulVec r r).det = A.det * (1 + r ⬝ᵥ A⁻¹ *ᵥ r) := by
  rw [vecMulVec_eq Unit, det_add_replicateCol_mul_replicateRow (det_ne hA)]
  congr 1
  rw [det_unique]
  simp [Matrix.mul_assoc, Matrix.mul_apply, dotProduct, mulVec, replicateRow, replicateCol]

theorem vecMulVec_mulVec' (r v : Fin p → ℝ) : vecMulVec r r *ᵥ v = (r ⬝ᵥ v) • r := by
  ext i
  simp [mulVec, dotProduct, vecMulVec_apply, Finset.mul_sum, mul_comm, mul_left_comm]

/-- The mean after one more row. -/
theorem mean_rank_one {A : Matrix (Fin p) (Fin p) ℝ} (hA : A.PosDef) (r u : Fin p → ℝ) (x : ℝ) :
    (A + vecMulVec r r)⁻¹ *ᵥ (u + x • r) =
      A⁻¹ *ᵥ u + ((x - r ⬝ᵥ A⁻¹ *ᵥ u) / (1 + r ⬝ᵥ A⁻¹ *ᵥ r)) • (A⁻¹ *ᵥ r) := by
  have hB : (A + vecMulVec r r).PosDef := hA.add_posSemidef (posSemidef_vecMulVec r)
  have hs := inv_form_nonneg hA r
  have h1 : A *ᵥ (A⁻¹ *ᵥ u) = u := by rw [mulVec_mulVec, mul_nonsing_inv _ (det_ne hA), one_mulVec]
  have h2 : A *ᵥ (A⁻¹ *ᵥ r) = r := by rw [mulVec_mulVec, mul_nonsing_inv _ (det_ne hA), one_mulVec]
  set s := r ⬝ᵥ A⁻¹ *ᵥ r with hsdef
  set t := r ⬝ᵥ A⁻¹ *ᵥ u with htdef
  have key : (A + vecMulVec r r) *ᵥ (A⁻¹ *ᵥ u + ((x - t) / (1 + s)) • (A⁻¹ *ᵥ r)) = u + x • r := by
    rw [add_mulVec, mulVec_add, mulVec_add, mulVec_smul, mulVec_smul, h1, h2, vecMulVec_mulVec',
      vecMulVec_mulVec', ← hsdef, ← htdef]
    ext i
    simp only [Pi.add_apply, Pi.smul_apply, smul_eq_mul]
    have : 1 + s ≠ 0 := by positivity
    field_simp
    ring
  rw [← key, mulVec_mulVec, nonsing_inv_mul _ (det_ne hB), one_mulVec]

/-- The quadratic form after one more row. -/
theorem form_rank_one {A : Matrix (Fin p) (Fin p) ℝ} (hA : A.PosDef) (r u : Fin p → ℝ) (x : ℝ) :
    (u + x • r) ⬝ᵥ (A + vecMulVec r r)⁻¹ *ᵥ (u + x • r) =
      u ⬝ᵥ A⁻¹ *ᵥ u + x ^ 2 - (x - r ⬝ᵥ A⁻¹ *ᵥ u) ^ 2 / (1 + r ⬝ᵥ A⁻¹ *ᵥ r) := by
  rw [mean_rank_one hA]
  have hs := inv_form_nonneg hA r
  simp only [dotProduct_add, add_dotProduct, dotProduct_smul, smul_dotProduct, smul_eq_mul]
  rw [form_symm hA u r]
  set s := r ⬝ᵥ A⁻¹ *ᵥ r
  set t := r ⬝ᵥ A⁻¹ *ᵥ u
  have : 1 + s ≠ 0 := by positivity
  field_simp
  ring

/-- The posterior precision. -/
noncomputable def prec (V : Matrix (Fin p) (Fin p) ℝ) (X : List (Fin p → ℝ)) :
    Matrix (Fin p) (Fin p) ℝ := V⁻¹ + gram X

/-- The precision times the posterior mean. -/
noncomputable def lin (mu : Fin p → ℝ) (V : Matrix (Fin p) (Fin p) ℝ) (X : List (Fin p → ℝ))
    (y : List ℝ) : Fin p → ℝ := V⁻¹ *ᵥ mu + cross X y

/-- The posterior scale. -/
noncomputable def scale (b : ℝ) (mu : Fin p → ℝ) (V : Matrix (Fin p) (Fin p) ℝ)
    (X : List (Fin p → ℝ)) (y : List ℝ) : ℝ :=
  b + (1/2) * (mu ⬝ᵥ V⁻¹ *ᵥ mu + sumSq y - lin mu V X y ⬝ᵥ (prec V X)⁻¹ *ᵥ lin mu V X y)

theorem prec_posDef {V : Matrix (Fin p) (Fin p) ℝ} (hV : V.PosDef) (X : List (Fin p → ℝ)) :
    (prec V X).PosDef := hV.inv.add_posSemidef (gram_posSemidef X)

/-- How much the row adds to the variance of the prediction. -/
noncomputable def spread (V : Matrix (Fin p) (Fin p) ℝ) (X : List (Fin p → ℝ)) (r : Fin p → ℝ) : ℝ :=
  r ⬝ᵥ (prec V X)⁻¹ *ᵥ r

/-- The predicted value. -/
noncomputable def centre (mu : Fin p → ℝ) (V : Matrix (Fin p) (Fin p) ℝ) (X : List (Fin p → ℝ))
    (y : List ℝ) (r : Fin p → ℝ) : ℝ := r ⬝ᵥ (prec V X)⁻¹ *ᵥ lin mu V X y

theorem spread_nonneg {V : Matrix (Fin p) (Fin p) ℝ} (hV : V.PosDef) (X : List (Fin p → ℝ))
    (r : Fin p → ℝ) : 0 ≤ spread V X r := inv_form_nonneg (prec_posDef hV X) r

theorem prec_append (V : Matrix (Fin p) (Fin p) ℝ) (X : List (Fin p → ℝ)) (r : Fin p → ℝ) :
    prec V (X ++ [r]) = prec V X + vecMulVec r r := by
  rw [prec, gram_append, ← add_assoc]; rfl

theorem det_prec_append {V : Matrix (Fin p) (Fin p) ℝ} (hV : V.PosDef) (X : List (Fin p → ℝ))
    (r : Fin p → ℝ) : (prec V (X ++ [r])).det = (prec V X).det * (1 + spread V X r) := by
  rw [prec_append, det_rank_one (prec_posDef hV X)]; rfl

theorem scale_nil {V : Matrix (Fin p) (Fin p) ℝ} (hV : V.PosDef) (b : ℝ) (mu : Fin p → ℝ) :
    scale b mu V [] [] = b := by
  have h : V⁻¹⁻¹ *ᵥ (V⁻¹ *ᵥ mu) = mu := by
    rw [nonsing_inv_nonsing_inv _ (det_ne hV), mulVec_mulVec, mul_nonsing_inv _ (det_ne hV),
      one_mulVec]
  simp only [scale, lin, prec, gram_nil, cross_nil, add_zero, h, sumSq, List.map_nil, List.sum_nil]
  rw [dotProduct_comm]; ring

theorem scale_append {V : Matrix (Fin p) (Fin p) ℝ} (hV : V.PosDef) (b : ℝ) (mu : Fin p → ℝ)
    (X : List (Fin p → ℝ)) (y : List ℝ) (h : X.length = y.length) (r : Fin p → ℝ) (x : ℝ) :
    scale b mu V (X ++ [r]) (y ++ [x]) =
      scale b mu V X y + 1 / (2 * (1 + spread V X r)) * (x - centre mu V X y r) ^ 2 := by
  have hs := spread_nonneg hV X r
  rw [scale, scale, lin, cross_append X y h, ← add_assoc, prec_append, sumSq_append]
  change b + 1 / 2 * (_ + _ - (lin mu V X y + x • r) ⬝ᵥ
    (prec V X + vecMulVec r r)⁻¹ *ᵥ (lin mu V X y + x • r)) = _
  rw [form_rank_one (prec_posDef hV X)]
  change b + 1 / 2 * (_ + _ - (_ + _ - (x - centre mu V X y r) ^ 2 / (1 + spread V X r))) = _
  have : 1 + spread V X r ≠ 0 := by positivity
  field_simp
  ring

theorem scale_pos {V : Matrix (Fin p) (Fin p) ℝ} (hV : V.PosDef) {b : ℝ} (hb : 0 < b)
    (mu : Fin p → ℝ) (X : List (Fin p → ℝ)) (y : List ℝ) (h : X.length = y.length) :
    0 < scale b mu V X y := by
  induction X using List.reverseRecOn generalizing y with
  | nil =>
    obtain rfl : y = [] := by simpa using h.symm
    rw [scale_nil hV]; exact hb
  | append_singleton X r ih =>
    obtain ⟨y, x, rfl⟩ : ∃ y' x, y = y' ++ [x] := by
      rcases List.eq_nil_or_concat y with rfl | ⟨y', x, rfl⟩
      · simp at h
      · exact ⟨y', x, by simp⟩
    have h : X.length = y.length := by simpa using h
    rw [scale_append hV b mu X y h]
    have := ih y h
    have := spread_nonneg hV X r
    positivity

/-- Nothing depends on the order of the rows. -/
theorem gram_perm {X X' : List (Fin p → ℝ)} (h : X.Perm X') : gram X = gram X' := by
  ext i j; simp only [gram, of_apply]; exact (h.map _).sum_eq

theorem cross_zip (Z : List ((Fin p → ℝ) × ℝ)) :
    cross (Z.map Prod.fst) (Z.map Prod.snd) = fun i => (Z.map fun z => z.1 i * z.2).sum := by
  ext i
  simp only [cross]
  congr 1
  induction Z with
  | nil => rfl
  | cons z Z ih => simp [ih]

theorem scale_perm (b : ℝ) (mu : Fin p → ℝ) (V : Matrix (Fin p) (Fin p) ℝ)
    {Z Z' : List ((Fin p → ℝ) × ℝ)} (h : Z.Perm Z') :
    scale b mu V (Z.map Prod.fst) (Z.map Prod.snd) =
      scale b mu V (Z'.map Prod.fst) (Z'.map Prod.snd) := by
  have h1 : gram (Z.map Prod.fst) = gram (Z'.map Prod.fst) := gram_perm (h.map _)
  have h2 : cross (Z.map Prod.fst) (Z.map Prod.snd) = cross (Z'.map Prod.fst) (Z'.map Prod.snd) := by
    rw [cross_zip, cross_zip]; ext i; exact (h.map _).sum_eq
  have h3 : sumSq (Z.map Prod.snd) = sumSq (Z'.map Prod.snd) := ((h.map _).map _).sum_eq
  simp only [scale, lin, prec, h1, h2, h3]

end Cgpm2.LinReg
