import Verif.Lemmas.TowerDensity
import Verif.Spec.Held

/-!
# Queries about a row that a mixture holds (helpers)
-/

namespace Cgpm2
open Spec

section
variable {A S : Type} {AI : Iface A} {I : Iface S} {MA : Sem A} {M : Sem S} {R : Arr A S}

theorem held_logpdf (L : Laws I M) (LR : ArrLaws AI I MA M R) {m : RowMix A} {r : RowId} {k : Val}
    (hi : MA.Inv m.array) (hx : R.x m.array = m.indexer)
    (hk : Dict.get? m.rowidToComponent r = some k) {c c0 : S} (hc : R.get m.array k = some c)
    (hE : M.E c0 c) (g : Rng) {t cs : Dict Var Val} (hcs : m.indexer ∉ Dict.keys cs) :
    (RowMix.logpdf AI r t cs [] (m, g)).1 =
      if only (AI.outputs m.array) t = [] then .ok (.fin 0)
      else (I.logpdf r (only (AI.outputs m.array) t) (only (AI.outputs m.array) cs) [] (c0, g)).1 := by
  rw [RowMix.logpdf_val_held hk, if_pos (.inr ((Dict.get?_eq_none_iff _ _).2 hcs))]
  unfold RowMix.compVal
  rw [show merged (only (m.outputsX AI) []) [(m.indexer, k)] = [(R.x m.array, k)] by rw [hx]; rfl]
  rw [LR.logpdf _ _ _ _ _ _ _ hi hc]
  dsimp only
  rw [← (L.logpdf r _ _ [] c0 c g hE).1]
  rfl

theorem held_logpdf_rejected {m : RowMix A} {r : RowId} {k : Val}
    (hk : Dict.get? m.rowidToComponent r = some k) (g : Rng) (t : Dict Var Val) {cs : Dict Var Val}
    (i : Dict Var Val) (hcs : m.indexer ∈ Dict.keys cs) :
    (RowMix.logpdf AI r t cs i (m, g)).1 = .error .assertionError := by
  rw [RowMix.logpdf_val_held hk, if_neg]
  rintro (h | h)
  · rw [h] at hcs; simp [Dict.keys] at hcs
  · exact (Dict.get?_eq_none_iff _ _).1 h hcs

theorem held_simulate_rejected {m : RowMix A} {r : RowId} {k : Val}
    (hk : Dict.get? m.rowidToComponent r = some k) (g : Rng) (t : List Var) {cs : Dict Var Val}
    (i : Dict Var Val) (N : Option Nat) (hcs : m.indexer ∈ Dict.keys cs) :
    (RowMix.simulate AI r t cs i N (m, g)).1 = .error .assertionError := by
  unfold RowMix.simulate
  rw [Py.get_bind]
  dsimp only
  rw [hk]
  dsimp only
  rw [Py.bind_apply, Py.assert_apply, if_neg]
  rintro (h | h)
  · rw [h] at hcs; simp [Dict.keys] at hcs
  · exact (Dict.get?_eq_none_iff _ _).1 h hcs

theorem held_simulate (L : Laws I M) (LR : ArrLaws AI I MA M R) {m : RowMix A} {r : RowId} {k : Val}
    (hi : MA.Inv m.array) (hx : R.x m.array = m.indexer)
    (hk : Dict.get? m.rowidToComponent r = some k) {c c0 : S} (hc : R.get m.array k = some c)
    (hE : M.E c0 c) (g : Rng) {t : List Var} {cs : Dict Var Val} {N : Option Nat}
    (hcs : m.indexer ∉ Dict.keys cs) {out : SimOut}
    (ho : (if onlyVars (AI.outputs m.array) t = [] then .ok (noValues N)
      else (I.simulate r (onlyVars (AI.outputs m.array) t) (only (AI.outputs m.array) cs) [] N
        (c0, g)).1) = .ok out) (hw : WellFormed N out) :
    (RowMix.simulate AI r t cs [] N (m, g)).1 =
      .ok (if m.indexer ∈ t then withValue m.indexer k out else out) := by
  unfold RowMix.simulate
  rw [Py.get_bind]
  dsimp only
  rw [hk]
  dsimp only
  rw [Py.bind_apply, Py.assert_apply, if_pos (.inr ((Dict.get?_eq_none_iff _ _).2 hcs))]
  dsimp only
  unfold RowMix.simulateOne
  rw [Py.get_bind]
  dsimp only
  have htail : ∀ st : RowMix A × Rng, ((if m.indexer ∈ t then
      match N, out with
      | none, .one s => (Pure.pure (SimOut.one (Dict.set s m.indexer k)) : Py (RowMix A × Rng) SimOut)
      | some _, .many l => Pure.pure (.many (l.map fun s => Dict.set s m.indexer k))
      | none, .many _ => Py.throw .typeError
      | some _, .one _ => Py.throw .typeError
    else Pure.pure out) st).1 = .ok (if m.indexer ∈ t then withValue m.indexer k out else out) := by
    intro st
    by_cases ht : m.indexer ∈ t
    · rw [if_pos ht, if_pos ht]
      rcases N with _ | n <;> rcases out with s | l <;> first | exact hw.elim | rfl
    · rw [if_neg ht, if_neg ht]
      rfl
  by_cases hT : onlyVars (AI.outputs m.array) t = []
  · rw [if_pos hT] at ho
    obtain rfl := Except.ok.inj ho
    rw [if_neg (not_not.2 (show getIntersectionL (m.outputsX AI) t = [] from hT))]
    rcases N with _ | n <;> exact htail _
  · rw [if_neg hT] at ho
    rw [if_pos (show ¬ getIntersectionL (m.outputsX AI) t = [] from hT)]
    rw [show merged (getIntersection (m.outputsX AI) []) [(m.indexer, k)] = [(R.x m.array, k)] by
      rw [hx]; rfl, Py.bind_apply, onArray_eq, LR.simulate _ _ _ _ _ _ _ _ hi hc]
    dsimp only
    rw [(L.simulate r _ _ [] N c0 c g hE).1] at ho
    rw [show (I.simulate r (getIntersectionL (m.outputsX AI) t) (getIntersection (m.outputsX AI) cs)
      [] N (c, g)).1 = .ok out from ho]
    exact htail _

end

end Cgpm2
