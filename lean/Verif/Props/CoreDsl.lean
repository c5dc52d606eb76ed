import Verif.Lemmas.CoreDsl

/-!
# Properties C62, C73: the text forms written by the compiler are read back
-/

namespace Cgpm2.Props
open CoreDsl

/-- C62: the key written for a distribution is parsed to the same name and output, for every name
that contains neither a brace nor `id:`. -/
theorem C62_key (name : Str) (hopen : '{' ∉ name) (hclose : '}' ∉ name)
    (hid : ¬ ['i', 'd', ':'] <:+: name) (output : Int) :
    parseKey (compileKey name output) = .ok (name, output) :=
  parseKey_compileKey hopen hclose hid output

/-- The names the compiler knows. -/
example : ∀ name ∈ ["categorical".toList, "crp".toList, "normal".toList, "poisson".toList,
    "bernoulli".toList], '{' ∉ name ∧ '}' ∉ name ∧ ¬ ['i', 'd', ':'] <:+: name := by decide
example : compileKey "crp".toList (-12) = "crp{id:-12}".toList := by decide

/-- C73, the part that holds: a number that is whole, or a whole number of ten-thousandths, is read
back exactly, and any other number within half a ten-thousandth. -/
theorem C73_partial (v : ℚ) : ∃ w, readNumber (writeNumber v) = .ok w ∧ |w - v| ≤ 1 / 20000 ∧
    ((∃ n : Int, v = n / 10000) → w = v) := by
  refine ⟨_, read_write v, ?_, fun ⟨n, hn⟩ => ?_⟩
  · split
    · simp
    · have h := abs_sub_round (v * 10000)
      have : ((round (v * 10000) : Int) : ℚ) / 10000 - v =
          -((v * 10000 - (round (v * 10000) : Int)) / 10000) := by ring
      rw [this, abs_neg, abs_div]
      rw [abs_of_pos (by norm_num : (0 : ℚ) < 10000)]
      linarith
  · split
    · rfl
    · have : v * 10000 = n := by rw [hn]; field_simp
      rw [this, round_intCast, hn]

/-- C73 fails: the hyperparameter 1/100000, legal for every class, is written as `0.0000` and read
back as zero, which is legal for none. -/
theorem C73_violated : writeNumber (1 / 100000) = "0.0000".toList ∧
    readNumber (writeNumber (1 / 100000)) = .ok 0 := by
  have ht : ¬ (1 / 100000 : ℚ) = truncate (1 / 100000) := by
    have : truncate (1 / 100000) = 0 := by decide +kernel
    rw [this]
    norm_num
  have hr : round ((1 / 100000 : ℚ) * 10000) = 0 := by
    rw [round_eq_zero_iff]
    constructor <;> norm_num
  constructor
  · rw [writeNumber, if_neg ht, fixed4, hr, if_neg (by norm_num)]
    decide
  · rw [read_write, if_neg ht, hr]
    norm_num

end Cgpm2.Props
