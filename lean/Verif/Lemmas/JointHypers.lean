import Verif.Lemmas.Lens
import Verif.Lemmas.Tuned

/-!
# Resampling the hyperparameters of a column of a view (helpers)
-/

namespace Cgpm2
open Spec MeasureTheory

variable {μ : Measure Draw} [IsProbabilityMeasure μ] {grids : Dict String (List ℝ)} {ps qs : List Prim}

/-! ## The kernel -/

theorem gridKernel_none {e : Dict String ℝ → ENNReal} {n : String} (hg : Dict.get? grids n = none) {c : Dict String ℝ}
    {F : Dict String ℝ → ENNReal} : gridKernel e grids n c F = F c := by
  unfold gridKernel
  rw [hg]

theorem kernels_scale {e e' : Dict String ℝ → ENNReal} {t : ENNReal} (h0 : t ≠ 0) (h1 : t ≠ ⊤)
    (he : ∀ c ∈ cellsOf grids, e c = t * e' c) {F F' : Dict String ℝ → ENNReal} (hF : ∀ c ∈ cellsOf grids, F c = F' c)
    (ns : List String) {c : Dict String ℝ} (hc : c ∈ cellsOf grids) :
    kernels (gridKernel e grids) ns c F = kernels (gridKernel e' grids) ns c F' := by
  induction ns generalizing c with
  | nil => exact hF c hc
  | cons n ns ih =>
    change gridKernel e grids n c _ = gridKernel e' grids n c _
    rcases hg : Dict.get? grids n with _ | grid
    · rw [gridKernel_none hg, gridKernel_none hg]
      exact ih hc
    rw [gridKernel_some hg, gridKernel_some hg]
    rw [List.map_congr_left (g := fun v => t * (e' (Dict.set c n v) * kernels (gridKernel e' grids) ns (Dict.set c n v) F'))
      fun v hv => by rw [he _ (cells_set hg hv hc), ih (cells_set hg hv hc), mul_assoc],
      List.map_congr_left (f := fun v => e (Dict.set c n v)) (g := fun v => t * e' (Dict.set c n v))
      fun v hv => he _ (cells_set hg hv hc), List.sum_map_mul_left, List.sum_map_mul_left,
      ENNReal.mul_div_mul_left _ _ h0 h1]

theorem hypersKernel_scale {t : ENNReal} (h0 : t ≠ 0) (h1 : t ≠ ⊤) (he : ∀ c ∈ cellsOf grids, weight ps c = t * weight qs c)
    {F F' : Dict String ℝ → ENNReal} (hF : ∀ c ∈ cellsOf grids, F c = F' c) (names : List String) {c : Dict String ℝ}
    (hc : c ∈ cellsOf grids) : hypersKernel ps grids names c F = hypersKernel qs grids names c F' :=
  overOrders_congr _ _ fun ns _ => kernels_scale h0 h1 he hF ns hc

theorem hypersKernel_only {F F' : Dict String ℝ → ENNReal} (hF : ∀ c ∈ cellsOf grids, F c = F' c) (names : List String)
    {c : Dict String ℝ} (hc : c ∈ cellsOf grids) : hypersKernel ps grids names c F = hypersKernel ps grids names c F' :=
  hypersKernel_scale one_ne_zero ENNReal.one_ne_top (fun _ _ => (one_mul _).symm) hF names hc

theorem hypersKernel_linear {cells : List (Dict String ℝ)} (hnd : cells.Nodup) (hm : ∀ c, c ∈ cells ↔ c ∈ cellsOf grids)
    (ps : List Prim) (names : List String) : Linear (· ∈ cells) Eq cells (hypersKernel ps grids names) :=
  Linear.overOrders (K := fun ns => kernels (gridKernel (weight ps) grids) ns) fun _ _ =>
    (Linear.kernels (classes_eq hnd) (fun n _ => gridKernel_linear hnd hm _ n) fun _ _ _ _ => classFn_eq _).1

theorem hypersKernel_stoch {cells : List (Dict String ℝ)} (hnd : cells.Nodup) (hm : ∀ c, c ∈ cells ↔ c ∈ cellsOf grids)
    (ps : List Prim) (names : List String) : Stoch (· ∈ cells) (hypersKernel ps grids names) := by
  have hmem : (· ∈ cells) = (· ∈ cellsOf grids) := funext fun c => propext (hm c)
  exact Stoch.overOrders (K := fun ns => kernels (gridKernel (weight ps) grids) ns) fun ns _ =>
    Stoch.kernels (classes_eq hnd) (fun n _ => gridKernel_linear hnd hm _ n) fun n _ => by
      rw [hmem]
      exact gridKernel_stoch (weight_ne ps) n

theorem hypersKernel_reach (ps : List Prim) (nd : (Dict.keys grids).Nodup) {c w : Dict String ℝ} (hc : c ∈ cellsOf grids)
    (hw : w ∈ cellsOf grids) : hypersKernel ps grids (Dict.keys grids) c (ind Eq w) ≠ 0 := by
  have h : ∀ ns : List String, ns.Perm (Dict.keys grids) → kernels (gridKernel (weight ps) grids) ns c (ind Eq w) ≠ 0 :=
    fun ns hns => grids_reach (weight_ne ps) nd hw (fun n hn => hns.mem_iff.1 hn) hc
      fun n hn hn' => absurd (hns.mem_iff.2 hn) hn'
  unfold hypersKernel
  rcases hlen : (Dict.keys grids).length with _ | n
  · exact h _ (.refl _)
  · exact overOrders_ne_zero hlen h

/-! ## The result lies on the grid -/

theorem transitionHyper_cell {h h' : Dict String ℝ} {n : String} {st st' : List Prim × Rng} (hh : h ∈ cellsOf grids)
    (e : transitionHyper grids h n st = (.ok h', st')) : h' ∈ cellsOf grids := by
  unfold transitionHyper at e
  rw [Py.lift_bind] at e
  unfold Dict.getItem at e
  rcases hg : Dict.get? grids n with _ | grid
  · rw [hg] at e; cases e
  rw [hg] at e
  dsimp only at e
  rw [Py.bind_apply] at e
  split at e
  · rw [Py.bind_apply] at e
    split at e
    · rename_i i _ _
      rcases hi : grid[i]? with _ | v
      · rw [hi] at e; cases e
      · rw [hi] at e
        cases e
        exact cells_set hg (List.mem_of_getElem? hi) hh
    · cases e
  · cases e

theorem transitionHypersLoop_cell : ∀ {ns : List String} {h h' : Dict String ℝ} {st st' : List Prim × Rng},
    h ∈ cellsOf grids → transitionHypersLoop grids ns h st = (.ok h', st') → h' ∈ cellsOf grids
  | [], _, _, _, _, hh, e => by cases e; exact hh
  | n :: ns, h, h', st, st', hh, e => by
    unfold transitionHypersLoop at e
    rw [Py.bind_apply] at e
    split at e
    · rename_i e1
      exact transitionHypersLoop_cell (transitionHyper_cell hh e1) e
    · cases e

theorem transitionHypers_cell {p : Prim} {h' : Dict String ℝ} {g : Rng} {st' : List Prim × Rng}
    (hh : p.getHypers ∈ cellsOf grids) (e : transitionHypers grids (p :: ps, g) = (.ok h', st')) : h' ∈ cellsOf grids := by
  unfold transitionHypers at e
  rw [Py.get_bind] at e
  dsimp only at e
  by_cases hc : sameClass (p :: ps)
  swap
  · rw [Py.assert_bind_neg hc] at e; cases e
  rw [Py.assert_bind_pos hc, Py.bind_apply] at e
  split at e
  · rw [Py.bind_apply] at e
    split at e
    · rename_i e1
      rw [Py.bind_apply] at e
      split at e
      · cases e
        exact transitionHypersLoop_cell hh e1
      · cases e
    · cases e
  · cases e

end Cgpm2
