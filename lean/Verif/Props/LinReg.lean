import Verif.Lemmas.LinReg
import Verif.Lemmas.StudentT
import Verif.Props.PrimGrids
import Verif.Spec.Held

/-!
# Properties C64, C65, C66, C78-C82: linear regression
-/

namespace Cgpm2

namespace Concrete

/-- A regression of variable 7 on a numeric input 1 and an input 2 with three levels. -/
noncomputable def reg0 : LinReg where
  outputs := [7]
  inputs := [1, 2]
  params := []
  distLevels := [0, 3]
  levels := [(2, 3)]
  N := 0
  data := []
  dataYraw := []
  dataYdum := []
  a := 1
  b := 1
  mu := 0
  V := 1

/-- It after one observation. -/
noncomputable def reg1 : LinReg where
  outputs := [7]
  inputs := [1, 2]
  params := []
  distLevels := [0, 3]
  levels := [(2, 3)]
  N := 1
  data := [(some 0, .num (5/2))]
  dataYraw := [(some 0, [some (.num (1/2)), some (.num 1)])]
  dataYdum := [(some 0, [.num 1, .num (1/2), .num 0, .num 1])]
  a := 1
  b := 1
  mu := 0
  V := 1

/-- The inputs of the observation. -/
def regIns : Dict Var Val := [(1, .num (1/2)), (2, .num 1)]

theorem reg0_history : Spec.RegHistory reg0 [] :=
  .init (a := none) (b := none) (mu := none) (V := none) (params := []) nofun nofun nofun
    (show LinReg.init [7] [1, 2] [0, 3] none none none none [] = .ok reg0 from rfl)

theorem reg1_eq : LinReg.observe (some 0) [(7, .num (5/2))] regIns reg0 = (.ok (), reg1) := rfl

theorem reg1_history : Spec.RegHistory reg1 [(some 0, .num (5/2), regIns)] := by
  have := reg0_history.observe (r := some 0) (o := 7) (x := .num (5/2)) (ob := [(7, .num (5/2))])
    (ins := regIns) rfl rfl (by rw [reg1_eq])
  rwa [reg1_eq] at this

theorem regIns_present : Spec.InputsPresent reg1.inputs regIns := by
  intro i hi
  have : i = 1 ∨ i = 2 := by simpa [reg1] using hi
  rcases this with rfl | rfl <;> simp [regIns, Dict.get?]

theorem reg1_complete : ∀ t ∈ [((some 0, .num (5/2), regIns) : Spec.RegRow)],
    Spec.RegRow.Complete reg1.inputs t := by
  intro t ht
  rw [List.mem_singleton.1 ht]
  exact ⟨nofun, regIns_present⟩

end Concrete

namespace Props
open Spec LinReg Matrix

/-! ### C66: the chain rule -/

/-- **C66.** For a regression with any history of complete observations, the score and the
logpdf of a new row are finite, the row can be observed, and the score after is the score before
plus the logpdf. -/
theorem C66 {m : LinReg} {rows : List RegRow} (h : RegHistory m rows)
    (hc : ∀ t ∈ rows, RegRow.Complete m.inputs t) {o : Var} (ho : m.outputs = [o]) {r : RowId}
    (hr : Dict.get? m.data r = none) (q : ℚ) {ins : Dict Var Val} (hi : InputsPresent m.inputs ins)
    {y : List Val} (hy : m.processInputs ins = .ok y) :
    ∃ s l : ℝ, m.logpdfScore = .ok (.fin s) ∧ m.logpdf r [(o, .num q)] [] ins = .ok (.fin l) ∧
      (LinReg.observe r [(o, .num q)] ins m).1 = .ok () ∧
      (LinReg.observe r [(o, .num q)] ins m).2.logpdfScore = .ok (.fin (s + l)) := by
  have hI := h.inv
  rw [Dict.get?_eq_none_iff] at hr
  have hy' : m.processInputs ins = .ok (m.code ins) := by rw [code_of_ok hy]; exact hy
  have hS := hI.score hc
  have hL := hI.predictive hc ho hr q hy' hi
  have hI' := hI.with1 hr (.num q) hy'
  have hs : (m.with1 r (.num q) ins).logpdfScore = _ := hI'.score (by
    intro t ht
    rcases List.mem_append.1 ht with ht | ht
    · exact hc t ht
    · rw [List.mem_singleton.1 ht]; exact ⟨nofun, hi⟩)
  have hs' : (m.with1 r (.num q) ins).logpdfScore =
      .ok (.fin (-((rows ++ [(r, Val.num q, ins)]).length / 2 : ℝ) * log2pi +
        zOf (m.a + ((rows ++ [(r, Val.num q, ins)]).length : ℝ) / 2)
          (scale m.b m.mu m.V (m.rowsX (rows ++ [(r, .num q, ins)])) (rowsY (rows ++ [(r, .num q, ins)])))
          (prec m.V (m.rowsX (rows ++ [(r, .num q, ins)]))).det - zOf m.a m.b (m.V⁻¹).det)) := hs
  have hl : ((rows ++ [(r, Val.num q, ins)]).length : ℝ) = (rows.length : ℝ) + 1 := by simp
  rw [hl] at hs'
  clear hs
  generalize scale m.b m.mu m.V (m.rowsX (rows ++ [(r, .num q, ins)]))
    (rowsY (rows ++ [(r, .num q, ins)])) = B1 at hs' hL
  generalize (prec m.V (m.rowsX (rows ++ [(r, .num q, ins)]))).det = D1 at hs' hL
  refine ⟨_, _, hS, hL, by rw [observe_ok ho hr _ hy], ?_⟩
  rw [observe_ok ho hr _ hy, hs']
  refine congrArg _ (congrArg _ ?_)
  ring

example := C66 Concrete.reg1_history Concrete.reg1_complete (o := 7) rfl (r := some 4) rfl 3
  Concrete.regIns_present (y := [.num 1, .num (1/2), .num 0, .num 1]) rfl

/-! ### C78: the predictive density is a density -/

/-- **C78.** Given any history of complete observations and any legal inputs, `exp (logpdf)` of a
new row is a positive continuous function of the value that integrates to one. -/
theorem C78 {m : LinReg} {rows : List RegRow} (h : RegHistory m rows)
    (hc : ∀ t ∈ rows, RegRow.Complete m.inputs t) {o : Var} (ho : m.outputs = [o]) {r : RowId}
    (hr : Dict.get? m.data r = none) {ins : Dict Var Val} (hi : InputsPresent m.inputs ins)
    {y : List Val} (hy : m.processInputs ins = .ok y) :
    ∃ f : ℝ → ℝ, Continuous f ∧ (∀ x, 0 < f x) ∧ ∫ x, f x = 1 ∧
      ∀ q : ℚ, m.logpdf r [(o, .num q)] [] ins = .ok (.fin (Real.log (f q))) := by
  have hI := h.inv
  rw [Dict.get?_eq_none_iff] at hr
  have hy' : m.processInputs ins = .ok (m.code ins) := by rw [code_of_ok hy]; exact hy
  have hV := hI.vPos
  have ha0 := hI.aPos
  set X := m.rowsX rows with hX
  set Y := rowsY rows with hY
  set v := vec m.p ((m.code ins).map real) with hv
  have hlen : X.length = Y.length := by simp [hX, hY, rowsX, rowsY]
  set S := scale m.b m.mu m.V X Y with hS
  set D := (prec m.V X).det with hD
  set s := spread m.V X v with hs
  set M := centre m.mu m.V X Y v with hM
  set A := m.a + (rows.length : ℝ) / 2 with hA
  set C : ℝ := 1 / (2 * (1 + s)) with hC
  have hS0 : 0 < S := scale_pos hV hI.bPos m.mu X Y hlen
  have hD0 : 0 < D := (prec_posDef hV X).det_pos
  have hs0 : 0 ≤ s := spread_nonneg hV X v
  have hA0 : 0 < A := by positivity
  have hC0 : 0 < C := by positivity
  have hb : ∀ x : ℝ, 0 < S + C * (x - M) ^ 2 := fun x => by positivity
  set k : ℝ := -(1/2) * log2pi + gammaln (A + 1/2) + Real.log (Real.sqrt (1 / (D * (1 + s)))) -
    zOf A S D with hk
  refine ⟨fun x => Real.exp k * (S + C * (x - M) ^ 2) ^ (-(A + 1/2)), ?_, ?_, ?_, ?_⟩
  · refine Continuous.mul (by fun_prop) (Continuous.rpow_const (by fun_prop) ?_)
    exact fun x => Or.inl (hb x).ne'
  · intro x
    exact mul_pos (Real.exp_pos _) (Real.rpow_pos_of_pos (hb x) _)
  · rw [MeasureTheory.integral_const_mul, integral_student (by linarith) hS0 hC0 M]
    have hG1 : 0 < Real.Gamma A := Real.Gamma_pos_of_pos hA0
    have hG2 : 0 < Real.Gamma (A + 1/2) := Real.Gamma_pos_of_pos (by linarith)
    have hst : 0 < studentConst (A + 1/2) S C := by
      rw [studentConst, add_sub_cancel_right]
      have := Real.rpow_pos_of_pos hS0 (-A)
      have := Real.pi_pos
      positivity
    rw [← Real.exp_log hst, ← Real.exp_add, Real.exp_eq_one_iff, studentConst, add_sub_cancel_right]
    have h1 : Real.log (Real.sqrt (1 / (D * (1 + s)))) = -(1/2) * (Real.log D + Real.log (1 + s)) := by
      rw [Real.log_sqrt (by positivity), one_div, Real.log_inv, Real.log_mul hD0.ne' (by positivity)]
      ring
    have h2 : Real.log (Real.sqrt (1 / D)) = -(1/2) * Real.log D := by
      rw [Real.log_sqrt (by positivity), one_div, Real.log_inv]
      ring
    have h3 : Real.log (Real.sqrt (Real.pi / C)) = (1/2) * (log2pi + Real.log (1 + s)) := by
      have e : Real.pi / C = 2 * Real.pi * (1 + s) := by rw [hC]; field_simp
      have := Real.pi_pos
      rw [Real.log_sqrt (by positivity), e, Real.log_mul (by positivity) (by positivity), log2pi]
      ring
    have hp := Real.pi_pos
    have hr := Real.rpow_pos_of_pos hS0 (-A)
    rw [Real.log_div (by positivity) hG2.ne', Real.log_mul (by positivity) (by positivity), h3,
      Real.log_mul hG1.ne' hr.ne', Real.log_rpow hS0, hk, zOf, h1, h2]
    simp only [gammaln]
    ring
  · intro q
    rw [hI.predictive hc ho hr q hy' hi]
    have e1 : m.rowsX (rows ++ [(r, .num q, ins)]) = X ++ [v] := by simp [hX, rowsX, hv]
    have e2 : rowsY (rows ++ [(r, .num q, ins)]) = Y ++ [(q : ℝ)] := by simp [hY, rowsY, real]
    rw [e1, e2, scale_append hV _ _ _ _ hlen, det_prec_append hV]
    change Except.ok (Fl.fin (-(1/2) * log2pi + zOf (m.a + ((rows.length : ℝ) + 1) / 2)
      (S + C * (q - M) ^ 2) (D * (1 + s)) - zOf A S D)) = _
    rw [Real.log_mul (Real.exp_pos _).ne' (Real.rpow_pos_of_pos (hb q) _).ne', Real.log_exp,
      Real.log_rpow (hb q), hk]
    have e3 : m.a + ((rows.length : ℝ) + 1) / 2 = A + 1/2 := by rw [hA]; ring
    rw [e3]
    congr 2
    simp only [zOf]
    ring

example := C78 Concrete.reg1_history Concrete.reg1_complete (o := 7) rfl (r := some 4) rfl
  Concrete.regIns_present (y := [.num 1, .num (1/2), .num 0, .num 1]) rfl

/-! ### C79: the order of observations does not matter -/

/-- **C79.** If rows can be observed in one order, they can be observed in every other; the score
and every logpdf afterwards are the same. -/
theorem C79 {m : LinReg} {rows : List RegRow} (h : RegHistory m rows) {o : Var} (ho : m.outputs = [o])
    {new new' : List RegRow} (hn : new.Perm new') (hok : (observeRows o new m).1 = .ok ()) :
    (observeRows o new' m).1 = .ok () ∧
    (observeRows o new m).2.logpdfScore = (observeRows o new' m).2.logpdfScore ∧
    ∀ r targets constraints ins, (observeRows o new m).2.logpdf r targets constraints ins =
      (observeRows o new' m).2.logpdf r targets constraints ins := by
  have hI := h.inv
  rw [hI.eq] at hok ⊢
  rcases observeRows_cases ho new rows with ⟨⟨h1, h2⟩, h3⟩ | ⟨-, e, he⟩
  · rcases observeRows_cases ho new' rows with ⟨-, h3'⟩ | ⟨hno, -⟩
    · rw [h3, h3']
      refine ⟨rfl, ?_⟩
      refine queries_perm hI.vPos (hn.append_left rows) ?_
      intro t ht
      rcases List.mem_append.1 ht with ht | ht
      · exact hI.coded t ht
      · exact (h1 t ht).2
    · exact absurd ⟨fun t ht => h1 t (hn.mem_iff.2 ht), (hn.map _).nodup_iff.1 h2⟩ hno
  · rw [he] at hok; exact nomatch hok

example := C79 Concrete.reg1_history (o := 7) rfl
  (List.Perm.swap ((some 1, .num 2, Concrete.regIns) : RegRow) (some 2, .nan, [(1, .num 4), (2, .num 2)]) [])
  rfl

/-! ### C80: missing values -/

/-- **C80 is violated.** A missing value is not left out.  Asking for the density of a missing value
gives nan, and once a row with a missing value or a missing numeric input was observed, the score and
the logpdf of every later row are nan. -/
theorem C80_violated {m : LinReg} {rows : List RegRow} (h : RegHistory m rows) {o : Var}
    (ho : m.outputs = [o]) {r : RowId} (hr : Dict.get? m.data r = none) (v : Val)
    {ins : Dict Var Val} {y : List Val} (hy : m.processInputs ins = .ok y) :
    (v = .nan → m.logpdf r [(o, v)] [] ins = .ok .nan) ∧
    (∀ t ∈ rows, ¬ RegRow.Complete m.inputs t →
      m.logpdfScore = .ok .nan ∧ m.logpdf r [(o, v)] [] ins = .ok .nan) := by
  have hI := h.inv
  rw [Dict.get?_eq_none_iff] at hr
  constructor
  · rintro rfl
    rw [hI.guard ho hr _ hy, hI.count, hI.ydum, hI.vals]
    have := predictive_nan hI.vPos m.mu m.a hI.bPos (Y := rows.map fun t => m.code t.2.2)
      (x := rows.map fun t => t.2.1) (by simp) hI.len (processInputs_length hy) .nan
      (Or.inr (by simp))
    rwa [List.length_map] at this
  · intro t ht hn
    have hbad : (∃ row ∈ rows.map (fun t => m.code t.2.2), Val.nan ∈ row) ∨
        Val.nan ∈ rows.map (fun t => t.2.1) := by
      by_cases hv : t.2.1 = .nan
      · exact Or.inr (List.mem_map.2 ⟨t, ht, hv⟩)
      · refine Or.inl ⟨_, List.mem_map.2 ⟨t, ht, rfl⟩, ?_⟩
        exact processInputs_absent (hI.coded t ht) fun hp => hn ⟨hv, hp⟩
    constructor
    · have := marginal_nan hI.vPos m.mu m.a hI.bPos (Y := rows.map fun t => m.code t.2.2)
        (x := rows.map fun t => t.2.1) (by simp) hI.len hbad
      rw [List.length_map] at this
      rw [logpdfScore, hI.count, hI.ydum, hI.vals, this]
    · rw [hI.guard ho hr _ hy, hI.count, hI.ydum, hI.vals]
      have := predictive_nan hI.vPos m.mu m.a hI.bPos (Y := rows.map fun t => m.code t.2.2)
        (x := rows.map fun t => t.2.1) (by simp) hI.len (processInputs_length hy) v (by
          rcases hbad with ⟨row, hr, hm⟩ | hm
          · exact Or.inl ⟨row, List.mem_append_left _ hr, hm⟩
          · exact Or.inr (List.mem_append_left _ hm))
      rwa [List.length_map] at this

/-- A reachable regression that holds a missing value. -/
example : ∃ m rows, RegHistory m rows ∧ ∃ t ∈ rows, ¬ RegRow.Complete m.inputs t := by
  refine ⟨_, _, Concrete.reg1_history.observe (r := some 1) (o := 7) (x := .nan) (ob := [(7, .nan)])
    (ins := Concrete.regIns) rfl rfl rfl, _, List.mem_append_right _ (List.mem_singleton.2 rfl), ?_⟩
  exact fun h => h.1 rfl

example := C80_violated Concrete.reg1_history (o := 7) rfl (r := some 4) rfl .nan
  (ins := Concrete.regIns) (y := [.num 1, .num (1/2), .num 0, .num 1]) rfl

/-- **C80, the part that holds.** The logpdf of a number for a new row with all its inputs present
is a finite number exactly if no row observed so far misses its value or a numeric input. -/
theorem C80_partial {m : LinReg} {rows : List RegRow} (h : RegHistory m rows) {o : Var}
    (ho : m.outputs = [o]) {r : RowId} (hr : Dict.get? m.data r = none) (q : ℚ)
    {ins : Dict Var Val} (hi : InputsPresent m.inputs ins) {y : List Val}
    (hy : m.processInputs ins = .ok y) :
    (∃ l : ℝ, m.logpdf r [(o, .num q)] [] ins = .ok (.fin l)) ↔
      ∀ t ∈ rows, RegRow.Complete m.inputs t := by
  constructor
  · rintro ⟨l, hl⟩ t ht
    by_contra hn
    rw [((C80_violated h ho hr (.num q) hy).2 t ht hn).2] at hl
    exact nomatch hl
  · intro hc
    obtain ⟨s, l, -, hl, -⟩ := C66 h hc ho hr q hi hy
    exact ⟨l, hl⟩

example := C80_partial Concrete.reg1_history (o := 7) rfl (r := some 4) rfl 3
  Concrete.regIns_present (y := [.num 1, .num (1/2), .num 0, .num 1]) rfl

/-! ### C65: unobserve -/

/-- **C65 is violated.** `unobserve` of a held row raises TypeError instead of returning the row.
The row is gone afterwards, the number of rows is not adjusted, and every later score and every
later logpdf with legal arguments raises AssertionError. -/
theorem C65_violated {m : LinReg} {rows : List RegRow} (h : RegHistory m rows) {o : Var}
    (ho : m.outputs = [o]) {r : RowId} {x : Val} (hr : Dict.get? m.data r = some x) :
    (LinReg.unobserve r m).1 = .error .typeError ∧
    Dict.get? (LinReg.unobserve r m).2.data r = none ∧
    (LinReg.unobserve r m).2.N = m.N ∧
    (LinReg.unobserve r m).2.logpdfScore = .error .assertionError ∧
    ∀ r' v ins y, Dict.get? (LinReg.unobserve r m).2.data r' = none →
      m.processInputs ins = .ok y →
      (LinReg.unobserve r m).2.logpdf r' [(o, v)] [] ins = .error .assertionError := by
  have hI := h.inv
  have hk : r ∈ rows.map Prod.fst := by
    have := Dict.mem_keys_of_get? hr
    rwa [hI.data, Dict.keys, List.map_map] at this
  obtain ⟨yr, hyr⟩ := Dict.exists_get?_of_mem_keys (d := m.dataYraw) (k := r) (by
    rw [hI.raw, Dict.keys, List.map_map]; exact hk)
  obtain ⟨yd, hyd⟩ := Dict.exists_get?_of_mem_keys (d := m.dataYdum) (k := r) (by
    rw [hI.dum, Dict.keys, List.map_map]; exact hk)
  have hf : firstOutput m.outputs = .ok o := by rw [ho]; rfl
  have e : LinReg.unobserve r m = (.error .typeError, { m with
      data := Dict.del m.data r
      dataYraw := Dict.del m.dataYraw r
      dataYdum := Dict.del m.dataYdum r }) := by
    unfold LinReg.unobserve
    simp only [Py.bind_apply, Py.get_apply, Py.lift_apply, Dict.getItem_ok hr, Py.modify_apply,
      Dict.getItem_ok hyr, Dict.getItem_ok hyd, hf, Py.throw_apply]
  have hl1 : (Dict.values (Dict.del m.data r)).length + 1 = rows.length := by
    have := (Dict.perm_values_del m.data r x hr).length_eq
    rw [List.length_cons] at this
    rw [← this, hI.vals, List.length_map]
  have hl2 : (Dict.values (Dict.del m.dataYdum r)).length + 1 = rows.length := by
    have := (Dict.perm_values_del m.dataYdum r yd hyd).length_eq
    rw [List.length_cons] at this
    rw [← this, hI.ydum, List.length_map]
  have hN : m.N ≠ 0 := by rw [hI.count]; omega
  have hY : ¬ (((Dict.values (Dict.del m.dataYdum r)).length : Int) = m.N ∧
      ∀ row ∈ Dict.values (Dict.del m.dataYdum r), row.length = m.p) := by
    rw [hI.count]; rintro ⟨h1, -⟩; omega
  have hpost : posteriorHypers m.N (Dict.values (Dict.del m.dataYdum r))
      (Dict.values (Dict.del m.data r)) m.a m.b m.mu m.V = .error .assertionError := by
    unfold posteriorHypers
    rw [if_neg hN, if_pos hY]
  have hnd : (Dict.keys m.data).Nodup := by
    rw [hI.data, Dict.keys, List.map_map]; exact hI.nodup
  rw [e]
  refine ⟨rfl, ?_, rfl, ?_, ?_⟩
  · change Dict.get? (Dict.del m.data r) r = none
    rw [Dict.get?_del _ hnd]; simp
  · change calcLogpdfMarginal m.N (Dict.values (Dict.del m.dataYdum r))
      (Dict.values (Dict.del m.data r)) m.a m.b m.mu m.V = _
    rw [calcLogpdfMarginal, hpost]; rfl
  · intro r' v ins y hr' hy
    have hh : Dict.has (Dict.del m.data r) r' = false := by
      rw [Dict.has_eq_false_iff, ← Dict.get?_eq_none_iff]; exact hr'
    have hkk : Dict.keys [(o, v)] = m.outputs := by rw [ho]; rfl
    unfold logpdf
    dsimp only
    rw [hh, if_neg (by simp), if_neg (by simp), if_neg (by simpa using hkk), hf]
    change (do
      let x ← Dict.getItem [(o, v)] o
      let yDum ← m.processInputs ins
      calcPredictiveLogp x yDum m.N (Dict.values (Dict.del m.dataYdum r))
        (Dict.values (Dict.del m.data r)) m.a m.b m.mu m.V : Except Err Fl) = _
    rw [getItem_single, hy]
    change calcPredictiveLogp v y m.N (Dict.values (Dict.del m.dataYdum r))
        (Dict.values (Dict.del m.data r)) m.a m.b m.mu m.V = _
    rw [calcPredictiveLogp, hpost]; rfl

example := C65_violated Concrete.reg1_history (o := 7) rfl (r := some 0) (x := .num (5/2)) rfl

/-- **C65, the part that holds.** `unobserve` of a row that is not held raises KeyError and changes
nothing; of a held row, it takes away exactly this row. -/
theorem C65_partial {m : LinReg} {rows : List RegRow} (h : RegHistory m rows) (r : RowId) :
    (Dict.get? m.data r = none → LinReg.unobserve r m = (.error .keyError, m)) ∧
    ∀ r', Dict.get? (LinReg.unobserve r m).2.data r' =
      if r' = r then none else Dict.get? m.data r' := by
  have hI := h.inv
  have hnd : (Dict.keys m.data).Nodup := by
    rw [hI.data, Dict.keys, List.map_map]; exact hI.nodup
  have h0 : Dict.get? m.data r = none → LinReg.unobserve r m = (.error .keyError, m) := by
    intro hr
    have : Dict.getItem m.data r = .error .keyError := by rw [Dict.getItem_eq, hr]
    unfold LinReg.unobserve
    simp only [Py.bind_apply, Py.get_apply, Py.lift_apply, this]
  refine ⟨h0, fun r' => ?_⟩
  cases hr : Dict.get? m.data r with
  | none =>
    rw [h0 hr]
    split
    · next e => rw [e]; exact hr
    · rfl
  | some x =>
    have hk : r ∈ rows.map Prod.fst := by
      have := Dict.mem_keys_of_get? hr
      rwa [hI.data, Dict.keys, List.map_map] at this
    obtain ⟨yr, hyr⟩ := Dict.exists_get?_of_mem_keys (d := m.dataYraw) (k := r) (by
      rw [hI.raw, Dict.keys, List.map_map]; exact hk)
    obtain ⟨yd, hyd⟩ := Dict.exists_get?_of_mem_keys (d := m.dataYdum) (k := r) (by
      rw [hI.dum, Dict.keys, List.map_map]; exact hk)
    obtain ⟨o, ho⟩ := hI.out
    have hf : firstOutput m.outputs = .ok o := by rw [ho]; rfl
    have e : (LinReg.unobserve r m).2.data = Dict.del m.data r := by
      unfold LinReg.unobserve
      simp only [Py.bind_apply, Py.get_apply, Py.lift_apply, Dict.getItem_ok hr, Py.modify_apply,
        Dict.getItem_ok hyr, Dict.getItem_ok hyd, hf, Py.throw_apply]
    rw [e, Dict.get?_del _ hnd]
    simp only [eq_comm]

example := C65_partial Concrete.reg1_history (some 0)

/-! ### C64: coding of inputs -/

theorem get?_filter_zip {inputs : List Var} (nd : inputs.Nodup) (lv : List Nat) (i : Var) :
    Dict.get? ((inputs.zip lv).filter fun il => decide (il.2 ≠ 0)) i = declared inputs lv i := by
  induction inputs generalizing lv with
  | nil => rfl
  | cons j inputs ih =>
    obtain ⟨hj, nd⟩ := List.nodup_cons.1 nd
    cases lv with
    | nil => rfl
    | cons l lv =>
      rw [List.zip_cons_cons, List.filter_cons]
      by_cases hji : j = i
      · subst hji
        have hd : declared (j :: inputs) (l :: lv) j = if l = 0 then none else some l := by
          simp [declared]
        rw [hd]
        by_cases hl : l = 0
        · rw [if_neg (by simpa using hl), if_pos hl, ih nd]
          unfold declared
          have : (inputs.zip lv).find? (fun il => il.1 = j) = none := by
            rw [List.find?_eq_none]
            intro il hil e
            exact hj (by rw [← of_decide_eq_true e]; exact (List.of_mem_zip (a := il.1) (b := il.2) hil).1)
          rw [this]
        · rw [if_pos (by simpa using hl), if_neg hl, Dict.get?_cons, if_pos rfl]
      · have hd : declared (j :: inputs) (l :: lv) i = declared inputs lv i := by
          simp [declared, hji]
        rw [hd, ← ih nd]
        split
        · rw [Dict.get?_cons, if_neg hji]
        · rfl

theorem nodup_filter_zip {inputs : List Var} (nd : inputs.Nodup) (lv : List Nat) :
    (Dict.keys ((inputs.zip lv).filter fun il => decide (il.2 ≠ 0))).Nodup := by
  have h1 : ((inputs.zip lv).map Prod.fst).Sublist inputs := by
    clear nd
    induction inputs generalizing lv with
    | nil => exact List.Sublist.refl _
    | cons i inputs ih =>
      cases lv with
      | nil => exact List.nil_sublist _
      | cons l lv => exact (ih lv).cons_cons i
  exact (nd.sublist h1).sublist (List.filter_sublist.map _)

/-- The levels a regression looks up are those declared. -/
theorem levels_declared {m : LinReg} {rows : List RegRow} (h : RegHistory m rows)
    (nd : m.inputs.Nodup) (i : Var) : Dict.get? m.levels i = declared m.inputs m.distLevels i := by
  rw [h.inv.levels, levelsOf, Dict.update_nil_left _ (nodup_filter_zip nd _), get?_filter_zip nd]

/-- **C64, the coding.** Accepted inputs become a list of `p` numbers that starts with 1, followed by
the codes of the inputs in order. -/
theorem C64_code {m : LinReg} {rows : List RegRow} (h : RegHistory m rows) (nd : m.inputs.Nodup)
    {ins : Dict Var Val} {y : List Val} (hy : m.processInputs ins = .ok y) :
    y.length = regDim m.distLevels ∧ ∃ blocks : List (List Val), y = .num 1 :: blocks.flatten ∧
      List.Forall₂ (fun i block => ∃ v, Dict.get? ins i = some v ∧
        IsCode (declared m.inputs m.distLevels i) v block) m.inputs blocks := by
  refine ⟨processInputs_length hy, ?_⟩
  obtain ⟨blocks, e, -, hb⟩ := processInputs_ok hy
  refine ⟨blocks, e, hb.imp ?_⟩
  rintro i block ⟨v, hv, hc⟩
  exact ⟨v, hv, levels_declared h nd i ▸ dummyCodeOne_code hc⟩

theorem flatten_inj {l : List Var} {P Q : Var → List Val → Prop} {bs bs' : List (List Val)}
    (h : List.Forall₂ P l bs) (h' : List.Forall₂ Q l bs')
    (hlen : ∀ i b b', P i b → Q i b' → b.length = b'.length) (e : bs.flatten = bs'.flatten) :
    bs = bs' := by
  induction h generalizing bs' with
  | nil => cases h'; rfl
  | @cons i b l bs hb _ ih =>
    cases h' with
    | @cons _ b' _ bs' hb' h' =>
      rw [List.flatten_cons, List.flatten_cons] at e
      obtain ⟨e1, e2⟩ := List.append_inj e (hlen i b b' hb hb')
      rw [e1, ih h' e2]

/-- The length of a code depends only on the input. -/
theorem code_length {o : Option Nat} {v v' : Val} {b b' : List Val} (h : IsCode o v b)
    (h' : IsCode o v' b') : b.length = b'.length := by
  cases o with
  | none => cases h; cases h'; rfl
  | some L => rw [h.1, h'.1]

/-- A code determines the value, among the numbers of levels. -/
theorem code_inj {o : Option Nat} {v v' : Val} {b : List Val} (h : IsCode o v b)
    (h' : IsCode o v' b) (hv : ∀ L, o = some L → ∃ k : Nat, k < L ∧ v = .num k)
    (hv' : ∀ L, o = some L → ∃ k : Nat, k < L ∧ v' = .num k) : v = v' := by
  cases o with
  | none =>
    have h : b = [v] := h
    have h' : b = [v'] := h'
    rw [h] at h'
    simpa using h'
  | some L =>
    obtain ⟨k, hk, rfl⟩ := hv L rfl
    obtain ⟨k', hk', rfl⟩ := hv' L rfl
    by_contra hne
    have hkk : k ≠ k' := fun e => hne (by rw [e])
    by_cases hlt : k < L - 1
    · have h1 := h.2 k hlt
      have h2 := h'.2 k hlt
      rw [h1, if_pos rfl, if_neg fun e => hne e.symm] at h2
      exact absurd (Option.some.inj h2) (by simp)
    · have hlt' : k' < L - 1 := by omega
      have h1 := h.2 k' hlt'
      have h2 := h'.2 k' hlt'
      rw [h1, if_pos rfl, if_neg hne] at h2
      exact absurd (Option.some.inj h2) (by simp)

/-- The values given for categorical inputs are whole numbers. -/
def WholeLevels (inputs : List Var) (levels : List Nat) (ins : Dict Var Val) : Prop :=
  ∀ i ∈ inputs, ∀ L, declared inputs levels i = some L → ∀ q, Dict.get? ins i = some (.num q) →
    ∃ z : Int, q = z

/-- **C64, different inputs.** Two accepted inputs with the same code agree in every input, if the
values of categorical inputs are whole numbers. -/
theorem C64_injective {m : LinReg} {rows : List RegRow} (h : RegHistory m rows) (nd : m.inputs.Nodup)
    {ins ins' : Dict Var Val} {y : List Val} (hy : m.processInputs ins = .ok y)
    (hy' : m.processInputs ins' = .ok y) (hw : WholeLevels m.inputs m.distLevels ins)
    (hw' : WholeLevels m.inputs m.distLevels ins') :
    ∀ i ∈ m.inputs, Dict.get? ins i = Dict.get? ins' i := by
  obtain ⟨bs, e, -, hb⟩ := processInputs_ok hy
  obtain ⟨bs', e', -, hb'⟩ := processInputs_ok hy'
  rw [e] at e'
  have hbs : bs = bs' := by
    refine flatten_inj hb hb' ?_ (List.cons.inj e').2
    rintro i b b' ⟨v, -, hc⟩ ⟨v', -, hc'⟩
    exact code_length (dummyCodeOne_code hc) (dummyCodeOne_code hc')
  subst hbs
  intro i hi
  obtain ⟨j, hj, rfl⟩ := List.getElem_of_mem hi
  have hj' : j < bs.length := by rw [← hb.length_eq]; exact hj
  obtain ⟨v, hv, hc⟩ := hb.get hj hj'
  obtain ⟨v', hv', hc'⟩ := hb'.get hj hj'
  simp only [List.get_eq_getElem] at hv hc hv' hc'
  have key : ∀ (ins : Dict Var Val) v, WholeLevels m.inputs m.distLevels ins →
      Dict.get? ins m.inputs[j] = some v → dummyCodeOne m.levels m.inputs[j] v = .ok bs[j] →
      ∀ L, Dict.get? m.levels m.inputs[j] = some L → ∃ k : Nat, k < L ∧ v = .num k := by
    intro ins v hw hv hc L hL
    obtain ⟨q, rfl, h0, hlt⟩ := dummyCodeOne_range hL hc
    obtain ⟨z, rfl⟩ := hw _ hi L (by rw [← levels_declared h nd]; exact hL) q hv
    obtain ⟨k, rfl⟩ := Int.eq_ofNat_of_zero_le (show 0 ≤ z by exact_mod_cast h0)
    exact ⟨k, by exact_mod_cast hlt, by simp⟩
  rw [hv, hv', code_inj (dummyCodeOne_code hc) (dummyCodeOne_code hc') (key ins v hw hv hc)
    (key ins' v' hw' hv' hc')]

/-- **C64, rejected inputs.** Inputs are refused if one is absent, or if a categorical one is missing
or outside the range of its levels. -/
theorem C64_rejects {m : LinReg} {rows : List RegRow} (h : RegHistory m rows) (nd : m.inputs.Nodup)
    {ins : Dict Var Val} {i : Var} (hi : i ∈ m.inputs)
    (hbad : Dict.get? ins i = none ∨ ∃ L, declared m.inputs m.distLevels i = some L ∧
      (Dict.get? ins i = some .nan ∨ ∃ q, Dict.get? ins i = some (.num q) ∧ (q < 0 ∨ (L : ℚ) ≤ q))) :
    ∃ e, m.processInputs ins = .error e := by
  cases hy : m.processInputs ins with
  | error e => exact ⟨e, rfl⟩
  | ok y =>
    exfalso
    obtain ⟨bs, e, -, hb⟩ := processInputs_ok hy
    obtain ⟨j, hj, rfl⟩ := List.getElem_of_mem hi
    have hj' : j < bs.length := by rw [← hb.length_eq]; exact hj
    obtain ⟨v, hv, hc⟩ := hb.get hj hj'
    simp only [List.get_eq_getElem] at hv hc
    rcases hbad with hn | ⟨L, hL, hbad⟩
    · rw [hn] at hv; exact nomatch hv
    · rw [← levels_declared h nd] at hL
      obtain ⟨q, rfl, h0, hlt⟩ := dummyCodeOne_range hL hc
      rcases hbad with hn | ⟨q', hq, hr⟩
      · rw [hn] at hv; exact nomatch hv
      · rw [hq] at hv
        cases Val.num.inj (Option.some.inj hv)
        rcases hr with hr | hr <;> linarith

theorem declared_cons {j i : Var} {inputs : List Var} {l : Nat} {lv : List Nat} (h : j ≠ i) :
    declared (j :: inputs) (l :: lv) i = declared inputs lv i := by simp [declared, h]

theorem blocks_length {inputs : List Var} (nd : inputs.Nodup) {lv : List Nat}
    (hl : lv.length = inputs.length) {bs : List (List Val)}
    (hb : List.Forall₂ (fun i b => ∃ v, IsCode (declared inputs lv i) v b) inputs bs) :
    bs.flatten.length = (lv.map fun l => if l = 0 then 1 else l - 1).sum := by
  induction inputs generalizing lv bs with
  | nil =>
    cases hb
    obtain rfl : lv = [] := List.length_eq_zero_iff.1 hl
    rfl
  | cons j inputs ih =>
    obtain ⟨hj, nd'⟩ := List.nodup_cons.1 nd
    cases lv with
    | nil => simp at hl
    | cons l lv =>
      cases hb with
      | @cons _ b _ bs hb1 hb2 =>
        rw [List.flatten_cons, List.length_append, List.map_cons, List.sum_cons]
        congr 1
        · obtain ⟨v, hv⟩ := hb1
          have hd : declared (j :: inputs) (l :: lv) j = if l = 0 then none else some l := by
            simp [declared]
          rw [hd] at hv
          split
          · next h0 =>
            rw [if_pos h0] at hv
            have hv : b = [v] := hv
            rw [hv]; rfl
          · next h0 => rw [if_neg h0] at hv; exact hv.1
        · refine ih nd' (by simpa using hl) ?_
          clear ih hl hb1
          have : ∀ k ∈ inputs, declared (j :: inputs) (l :: lv) k = declared inputs lv k :=
            fun k hk => declared_cons fun e => hj (e ▸ hk)
          generalize hP : declared (j :: inputs) (l :: lv) = P at *
          clear hP
          generalize declared inputs lv = Q at *
          clear hj nd nd'
          induction hb2 with
          | nil => exact .nil
          | @cons a b as bs h1 _ ih =>
            refine .cons ?_ (ih fun k hk => this k (List.mem_cons_of_mem _ hk))
            rw [← this a List.mem_cons_self]; exact h1

/-- **C64, accepted inputs.** Inputs are accepted if all are given and the categorical ones are
numbers of levels. -/
theorem C64_accepts {m : LinReg} {rows : List RegRow} (h : RegHistory m rows) (nd : m.inputs.Nodup)
    {ins : Dict Var Val} (hv : ∀ i ∈ m.inputs, ∃ v, Dict.get? ins i = some v ∧
      ∀ L, declared m.inputs m.distLevels i = some L → ∃ k : Nat, v = .num k ∧ k < L) :
    ∃ y, m.processInputs ins = .ok y := by
  have hI := h.inv
  have hex : ∀ i ∈ m.inputs, ∃ b, (do
      let v ← Dict.getItem ins i
      dummyCodeOne m.levels i v : Except Err (List Val)) = .ok b := by
    intro i hi
    obtain ⟨v, hg, hL⟩ := hv i hi
    rw [Dict.getItem_ok hg]
    refine dummyCodeOne_ok fun L hL' => hL L ?_
    rw [← levels_declared h nd]; exact hL'
  obtain ⟨bs, hbs⟩ : ∃ bs, m.inputs.mapM (fun i => (do
      let v ← Dict.getItem ins i
      dummyCodeOne m.levels i v : Except Err (List Val))) = .ok bs := by
    generalize m.inputs = l at hex
    clear hv nd
    induction l with
    | nil => exact ⟨[], rfl⟩
    | cons i l ih =>
      obtain ⟨b, hb⟩ := hex i (by simp)
      obtain ⟨bs, hbs⟩ := ih fun k hk => hex k (List.mem_cons_of_mem _ hk)
      exact ⟨b :: bs, by rw [List.mapM_cons, hb, hbs]; rfl⟩
  have hF := (mapM_ok_iff _ _ _).1 hbs
  refine ⟨.num 1 :: bs.flatten, ?_⟩
  unfold processInputs
  rw [hbs]
  change (if bs.flatten.length = m.p - 1 then Except.ok (Val.num 1 :: bs.flatten)
      else Except.error Err.assertionError) = _
  rw [if_pos]
  change _ = regDim m.distLevels - 1
  rw [blocks_length nd hI.ins (lv := m.distLevels) (hF.imp ?_), regDim, Nat.add_sub_cancel_left]
  intro i b hi
  cases hg : Dict.getItem ins i with
  | error e => rw [hg] at hi; exact nomatch hi
  | ok v => rw [hg] at hi; exact ⟨v, levels_declared h nd i ▸ dummyCodeOne_code hi⟩

example := C64_accepts Concrete.reg1_history (by decide) (ins := Concrete.regIns) (by
  intro i hi
  have : i = 1 ∨ i = 2 := by simpa [Concrete.reg1] using hi
  rcases this with rfl | rfl
  · exact ⟨_, rfl, fun L hL => nomatch hL⟩
  · exact ⟨_, rfl, fun L hL => ⟨1, by simp, by cases hL; decide⟩⟩)

example := C64_code Concrete.reg1_history (by decide) (ins := Concrete.regIns)
  (y := [.num 1, .num (1/2), .num 0, .num 1]) rfl

example := C64_injective Concrete.reg1_history (by decide) (ins := Concrete.regIns)
  (ins' := [(2, .num 1), (1, .num (1/2))])
  (y := [.num 1, .num (1/2), .num 0, .num 1]) rfl rfl
  (by
    intro i hi L hL q hq
    have : i = 1 ∨ i = 2 := by simpa [Concrete.reg1] using hi
    rcases this with rfl | rfl
    · exact nomatch hL
    · cases hq; exact ⟨1, by simp⟩)
  (by
    intro i hi L hL q hq
    have : i = 1 ∨ i = 2 := by simpa [Concrete.reg1] using hi
    rcases this with rfl | rfl
    · exact nomatch hL
    · cases hq; exact ⟨1, by simp⟩)

example := C64_rejects Concrete.reg1_history (by decide) (ins := [(1, .num 0), (2, .num 3)])
  (i := 2) (List.mem_cons_of_mem _ (List.mem_singleton.2 rfl))
  (Or.inr ⟨3, rfl, Or.inr ⟨3, rfl, Or.inr (by norm_num)⟩⟩)

/-- Fractions are not all refused: one between the last level and the number of levels is taken for
the last level. -/
theorem C64_fraction {codes : Dict Var Nat} {i : Var} {L : Nat} (hL : Dict.get? codes i = some L)
    {q : ℚ} (h1 : 1 ≤ L) (h2 : (((L : Int) - 1 : Int) : ℚ) ≤ q) (h3 : q < L) :
    dummyCodeOne codes i (.num q) = dummyCodeOne codes i (.num (((L : Int) - 1 : Int) : ℚ)) := by
  have h0 : (0 : ℚ) ≤ (((L : Int) - 1 : Int) : ℚ) := by
    have : (0 : Int) ≤ (L : Int) - 1 := by omega
    exact_mod_cast this
  unfold dummyCodeOne
  rw [hL]
  dsimp only
  rw [if_pos ⟨h0.trans h2, h3⟩, if_neg (not_lt.2 h2), if_pos ⟨h0, lt_of_le_of_lt h2 h3⟩,
    if_neg (lt_irrefl _)]

example := C64_fraction (codes := [(2, 3)]) (i := 2) rfl (q := 5/2) (by norm_num) (by norm_num)
  (by norm_num)

/-! ### C19: grids -/

/-- **C19, linear regression.** For data with at least one value the grids are not empty, name the
two hyperparameters, and every combination of grid points is accepted by `set_hypers`. -/
theorem C19_linreg_partial {X : List ℚ} (hX : X ≠ []) {n : Nat} (hn : 1 ≤ n) (m : LinReg) :
    (constructHyperGrids X n).map Prod.fst = ["a", "b"] ∧
    (∀ g ∈ constructHyperGrids X n, g.2 ≠ []) ∧
    ∀ h : Dict String (Option ℝ),
      (∀ g ∈ constructHyperGrids X n, ∃ x ∈ g.2, Dict.get? h g.1 = some x) →
      (LinReg.setHypers h m).1 = .ok () := by
  have hb : (constructHyperGrids X n) =
      [("a", (logLinspace (1 / (10 * ((X.length : ℝ) + 1))) (10 * ((X.length : ℝ) + 1)) n).map some),
       ("b", (logLinspace ((Normal.npVar X * X.length + 1) / 100) (Normal.npVar X * X.length + 1) n).map
          some)] := by
    cases X with
    | nil => exact absurd rfl hX
    | cons x X => rfl
  rw [hb]
  refine ⟨rfl, ?_, ?_⟩
  · simp [logLinspace_ne_nil _ _ hn]
  · intro h hh
    obtain ⟨a, ha, hga⟩ := hh _ List.mem_cons_self
    obtain ⟨b, hb, hgb⟩ := hh _ (List.mem_cons_of_mem _ List.mem_cons_self)
    obtain ⟨a, ha', rfl⟩ := List.mem_map.1 ha
    obtain ⟨b, hb', rfl⟩ := List.mem_map.1 hb
    have ha0 : 0 < a := logLinspace_pos ha'
    have hb0 : 0 < b := logLinspace_pos hb'
    rcases setHypers_cases m h with ⟨e, he⟩ | ⟨a', b', -, -, -, -, he⟩
    · exfalso
      have e2 : (LinReg.setHypers h m).1 = .ok () := by
        unfold LinReg.setHypers
        have h1 : ∃ r, some a = some r ∧ 0 < r := ⟨a, rfl, ha0⟩
        have h2 : ∃ r, some b = some r ∧ 0 < r := ⟨b, rfl, hb0⟩
        simp only [Py.bind_apply, Py.lift_apply, Dict.getItem_ok hga, Dict.getItem_ok hgb,
          Py.assert_apply, if_pos h1, if_pos h2, Py.modify_apply]
      rw [he] at e2
      exact nomatch e2
    · rw [he]

example := C19_linreg_partial (X := [1, 4]) (by simp) (n := 30) (by norm_num) Concrete.reg1

/-- **C19 is violated** for a linear regression without data: no combination of points of its grids is
accepted by `set_hypers`. -/
theorem C19_linreg_violated (n : Nat) (m : LinReg) (h : Dict String (Option ℝ))
    (hh : ∀ g ∈ constructHyperGrids [] n, ∃ x ∈ g.2, Dict.get? h g.1 = some x) :
    LinReg.setHypers h m = (.error .assertionError, m) := by
  obtain ⟨a, ha, hga⟩ := hh _ List.mem_cons_self
  obtain ⟨b, hb, hgb⟩ := hh _ (List.mem_cons_of_mem _ List.mem_cons_self)
  obtain ⟨a, ha', rfl⟩ := List.mem_map.1 ha
  have ha0 : 0 < a := logLinspace_pos ha'
  obtain rfl : b = none := (List.mem_replicate.1 hb).2
  unfold LinReg.setHypers
  have h1 : ∃ r, some a = some r ∧ 0 < r := ⟨a, rfl, ha0⟩
  have h2 : ¬ ∃ r, (none : Option ℝ) = some r ∧ 0 < r := by rintro ⟨r, hr, -⟩; exact nomatch hr
  simp only [Py.bind_apply, Py.lift_apply, Dict.getItem_ok hga, Dict.getItem_ok hgb,
    Py.assert_apply, if_pos h1, if_neg h2]

/-! ### C81: metadata -/

/-- **C81, the part that holds.** A regression with the default prior mean 0 and covariance 1 (and no
`params`) is restored from its metadata as it was. -/
theorem C81_partial {m : LinReg} {rows : List RegRow} (h : RegHistory m rows) (hi : m.inputs ≠ [])
    (hoi : ∀ o ∈ m.outputs, o ∉ m.inputs) (hp : m.params = []) (hmu : m.mu = 0) (hV : m.V = 1) :
    fromMetadata m.toMetadata = .ok m := by
  have hI := h.inv
  obtain ⟨o, ho⟩ := hI.out
  have hnd : ∀ {W : Type} (f : RegRow → W), (Dict.keys (rows.map fun t => (t.1, f t))).Nodup := by
    intro W f; rw [Dict.keys, List.map_map]; exact hI.nodup
  have h1 : Dict.update [] m.data = m.data := by
    rw [hI.data]; exact Dict.update_nil_left _ (hnd _)
  have h2 : Dict.update [] m.dataYraw = m.dataYraw := by
    rw [hI.raw]; exact Dict.update_nil_left _ (hnd _)
  have h3 : Dict.update [] m.dataYdum = m.dataYdum := by
    rw [hI.dum]; exact Dict.update_nil_left _ (hnd _)
  have hn : o ∉ m.inputs := hoi o (by rw [ho]; simp)
  unfold fromMetadata
  change (do
    let model ← LinReg.init m.outputs m.inputs m.distLevels (some m.a) (some m.b) none none []
    pure { model with
      N := m.N
      data := Dict.update [] m.data
      dataYraw := Dict.update [] m.dataYraw
      dataYdum := Dict.update [] m.dataYdum } : Except Err LinReg) = _
  have hinit : LinReg.init m.outputs m.inputs m.distLevels (some m.a) (some m.b) none none [] =
      .ok { outputs := m.outputs, inputs := m.inputs, params := [], distLevels := m.distLevels,
            levels := levelsOf m.inputs m.distLevels, N := 0, data := [], dataYraw := [], dataYdum := [],
            a := m.a, b := m.b, mu := 0, V := 1 } := by
    unfold LinReg.init
    rw [ho, if_neg (by simp), if_neg (by simpa using hi)]
    dsimp only
    rw [if_neg hn, if_neg (by simpa using hI.ins)]
    rfl
  rw [hinit, h1, h2, h3, ← hI.levels]
  change Except.ok ({ m with params := [], mu := 0, V := 1 } : LinReg) = _
  rw [← hp, ← hmu, ← hV]

example := C81_partial Concrete.reg1_history (by simp [Concrete.reg1]) (by simp [Concrete.reg1]) rfl rfl rfl

/-- A regression with another prior mean. -/
noncomputable def Concrete.reg2 : LinReg where
  outputs := [7]
  inputs := [1]
  params := []
  distLevels := [0]
  levels := []
  N := 0
  data := []
  dataYraw := []
  dataYdum := []
  a := 1
  b := 1
  mu := fun _ => 1
  V := 1

/-- What its metadata restores. -/
noncomputable def Concrete.reg3 : LinReg where
  outputs := [7]
  inputs := [1]
  params := []
  distLevels := [0]
  levels := []
  N := 0
  data := []
  dataYraw := []
  dataYdum := []
  a := 1
  b := 1
  mu := 0
  V := 1

theorem Concrete.reg2_history : RegHistory Concrete.reg2 [] :=
  .init (a := none) (b := none) (mu := some fun _ => 1) (V := none) (params := []) nofun nofun nofun
    (show LinReg.init [7] [1] [0] none none (some fun _ => 1) none [] = .ok Concrete.reg2 from rfl)

theorem Concrete.reg3_history : RegHistory Concrete.reg3 [] :=
  .init (a := none) (b := none) (mu := none) (V := none) (params := []) nofun nofun nofun
    (show LinReg.init [7] [1] [0] none none none none [] = .ok Concrete.reg3 from rfl)

/-- The density of a first row, with prior covariance 1. -/
theorem first_density {m : LinReg} (h : RegHistory m []) (hV : m.V = 1) {o : Var} (ho : m.outputs = [o])
    (r : RowId) (q : ℚ) {ins : Dict Var Val} (hi : InputsPresent m.inputs ins)
    (hy : m.processInputs ins = .ok (m.code ins)) :
    m.logpdf r [(o, .num q)] [] ins = .ok (.fin (-(1/2) * log2pi + zOf (m.a + 1/2)
      (m.b + 1 / (2 * (1 + vec m.p ((m.code ins).map real) ⬝ᵥ vec m.p ((m.code ins).map real))) *
        (q - vec m.p ((m.code ins).map real) ⬝ᵥ m.mu) ^ 2)
      (1 + vec m.p ((m.code ins).map real) ⬝ᵥ vec m.p ((m.code ins).map real)) -
      zOf m.a m.b 1)) := by
  have hI := h.inv
  have hr : r ∉ Dict.keys m.data := by rw [hI.data]; simp
  rw [hI.predictive (by simp) ho hr q hy hi]
  have e1 : m.rowsX ([] ++ [(r, .num q, ins)]) = [] ++ [vec m.p ((m.code ins).map real)] := rfl
  have e2 : rowsY ([] ++ [(r, .num q, ins)]) = [] ++ [(q : ℝ)] := rfl
  have hP : (1 : Matrix (Fin m.p) (Fin m.p) ℝ).PosDef := PosDef.one
  rw [e1, e2, hV, scale_append hP _ _ _ _ (by simp), det_prec_append hP, show m.rowsX [] = [] from rfl,
    show rowsY [] = [] from rfl, scale_nil hP]
  simp only [spread, centre, prec, lin, gram_nil, cross_nil, add_zero, inv_one, one_mulVec, det_one,
    one_mul, List.length_nil, Nat.cast_zero, zero_add, zero_div]

/-- **C81 is violated.** The metadata does not record the prior mean and covariance.  A regression
created with a prior mean of ones is restored with a prior mean of zeros, and gives another density
to the value 1. -/
theorem C81_violated : RegHistory Concrete.reg2 [] ∧
    fromMetadata Concrete.reg2.toMetadata = .ok Concrete.reg3 ∧
    Concrete.reg2.logpdf (some 0) [(7, .num 1)] [] [(1, .num 0)] ≠
      Concrete.reg3.logpdf (some 0) [(7, .num 1)] [] [(1, .num 0)] := by
  refine ⟨Concrete.reg2_history, rfl, ?_⟩
  have hi : InputsPresent [1] [(1, .num 0)] := by
    intro i hi
    rw [List.mem_singleton.1 hi]; simp [Dict.get?]
  have h2 := first_density Concrete.reg2_history rfl (o := 7) rfl (some 0) 1 (ins := [(1, .num 0)]) hi rfl
  have h3 := first_density Concrete.reg3_history rfl (o := 7) rfl (some 0) 1 (ins := [(1, .num 0)]) hi rfl
  rw [h2, h3]
  have hc2 : vec Concrete.reg2.p ((Concrete.reg2.code [(1, .num 0)]).map real) =
      (![1, 0] : Fin 2 → ℝ) := by
    change vec 2 [((1 : ℚ) : ℝ), ((0 : ℚ) : ℝ)] = _
    ext i; fin_cases i <;> simp [LinReg.vec]
  have hc3 : vec Concrete.reg3.p ((Concrete.reg3.code [(1, .num 0)]).map real) =
      (![1, 0] : Fin 2 → ℝ) := hc2
  have d1 : (![1, 0] : Fin 2 → ℝ) ⬝ᵥ ![1, 0] = 1 := by simp [dotProduct, Fin.sum_univ_two]
  have d2 : (![1, 0] : Fin 2 → ℝ) ⬝ᵥ (fun _ => 1) = 1 := by simp [dotProduct, Fin.sum_univ_two]
  have d3 : (![1, 0] : Fin 2 → ℝ) ⬝ᵥ 0 = 0 := by simp
  intro e
  have e := Fl.fin.inj (Except.ok.inj e)
  simp only [zOf] at e
  change -(1/2) * log2pi + (gammaln (1 + 1/2) +
      Real.log (Real.sqrt (1 / (1 + vec Concrete.reg2.p ((Concrete.reg2.code [(1, .num 0)]).map real) ⬝ᵥ vec Concrete.reg2.p ((Concrete.reg2.code [(1, .num 0)]).map real)))) +
      -((1 + 1/2) * Real.log (1 + 1 / (2 * (1 + vec Concrete.reg2.p ((Concrete.reg2.code [(1, .num 0)]).map real) ⬝ᵥ vec Concrete.reg2.p ((Concrete.reg2.code [(1, .num 0)]).map real))) *
        (((1 : ℚ) : ℝ) - vec Concrete.reg2.p ((Concrete.reg2.code [(1, .num 0)]).map real) ⬝ᵥ (fun _ => 1)) ^ 2))) - _ =
    -(1/2) * log2pi + (gammaln (1 + 1/2) +
      Real.log (Real.sqrt (1 / (1 + vec Concrete.reg3.p ((Concrete.reg3.code [(1, .num 0)]).map real) ⬝ᵥ vec Concrete.reg3.p ((Concrete.reg3.code [(1, .num 0)]).map real)))) +
      -((1 + 1/2) * Real.log (1 + 1 / (2 * (1 + vec Concrete.reg3.p ((Concrete.reg3.code [(1, .num 0)]).map real) ⬝ᵥ vec Concrete.reg3.p ((Concrete.reg3.code [(1, .num 0)]).map real))) *
        (((1 : ℚ) : ℝ) - vec Concrete.reg3.p ((Concrete.reg3.code [(1, .num 0)]).map real) ⬝ᵥ 0) ^ 2))) - _ at e
  rw [hc2, hc3] at e
  change -(1/2) * log2pi + (gammaln (1 + 1/2) +
      Real.log (Real.sqrt (1 / (1 + (![1, 0] : Fin 2 → ℝ) ⬝ᵥ ![1, 0]))) +
      -((1 + 1/2) * Real.log (1 + 1 / (2 * (1 + (![1, 0] : Fin 2 → ℝ) ⬝ᵥ ![1, 0])) *
        (((1 : ℚ) : ℝ) - (![1, 0] : Fin 2 → ℝ) ⬝ᵥ (fun _ => 1)) ^ 2))) - (gammaln 1 + Real.log (Real.sqrt (1 / 1)) + -(1 * Real.log 1)) =
    -(1/2) * log2pi + (gammaln (1 + 1/2) +
      Real.log (Real.sqrt (1 / (1 + (![1, 0] : Fin 2 → ℝ) ⬝ᵥ ![1, 0]))) +
      -((1 + 1/2) * Real.log (1 + 1 / (2 * (1 + (![1, 0] : Fin 2 → ℝ) ⬝ᵥ ![1, 0])) *
        (((1 : ℚ) : ℝ) - (![1, 0] : Fin 2 → ℝ) ⬝ᵥ 0) ^ 2))) - (gammaln 1 + Real.log (Real.sqrt (1 / 1)) + -(1 * Real.log 1)) at e
  rw [d1, d2, d3] at e
  have h1 : Real.log (1 + 1 / (2 * (1 + 1)) * (((1 : ℚ) : ℝ) - 1) ^ 2) = 0 := by norm_num
  have h2 : 0 < Real.log (1 + 1 / (2 * (1 + 1)) * (((1 : ℚ) : ℝ) - 0) ^ 2) :=
    Real.log_pos (by norm_num)
  rw [h1] at e
  linarith

/-! ### C82: simulation -/

/-- One sample. -/
theorem regression_sample {m : LinReg} {rows : List RegRow} (h : RegHistory m rows) {o : Var} (ho : m.outputs = [o])
    (r : RowId) {ins : Dict Var Val} {y : List Val} (hy : m.processInputs ins = .ok y) (rng : Rng) :
    (∀ x, Dict.get? m.data r = some x → m.simulate1 r [o] [] ins rng = (.ok [(o, x)], rng)) ∧
    (Dict.get? m.data r = none → ∃ q rng', m.simulate1 r [o] [] ins rng = (.ok [(o, .num q)], rng')) := by
  have hI := h.inv
  have hf : firstOutput m.outputs = .ok o := by rw [ho]; rfl
  constructor
  · intro x hx
    unfold LinReg.simulate1
    rw [Py.assert_bind_pos ho.symm, Py.assert_bind_pos rfl, Py.bind_apply, Py.lift_apply, hf]
    dsimp only
    rw [hx]
    rfl
  · intro hx
    unfold LinReg.simulate1
    rw [Py.assert_bind_pos ho.symm, Py.assert_bind_pos rfl, Py.bind_apply, Py.lift_apply, hf]
    dsimp only
    rw [hx]
    dsimp only
    have hpost : ∃ z, posteriorHypers m.N (Dict.values m.dataYdum) (Dict.values m.data) m.a m.b m.mu m.V =
        .ok z := by
      rw [hI.count, hI.ydum, hI.vals]
      by_cases hb : (∃ row ∈ rows.map (fun t => m.code t.2.2), Val.nan ∈ row) ∨
          Val.nan ∈ rows.map (fun t => t.2.1)
      · have := posterior_nan hI.vPos m.mu m.a m.b (Y := rows.map fun t => m.code t.2.2)
          (x := rows.map fun t => t.2.1) (by simp) hI.len hb
        rw [List.length_map] at this
        exact ⟨_, this⟩
      · simp only [not_or, not_exists, not_and] at hb
        have := posterior_some hI.vPos m.mu m.a m.b (Y := rows.map fun t => m.code t.2.2)
          (x := rows.map fun t => t.2.1) (by simp) hI.len hb.1 hb.2
        rw [List.length_map] at this
        exact ⟨_, this⟩
    obtain ⟨z, hz⟩ := hpost
    rw [Py.bind_apply, Py.lift_apply, hy]
    dsimp only
    rw [hz]
    exact ⟨_, _, rfl⟩

theorem simulateMany_all {one : Py Rng (Dict Var Val)} {P : Dict Var Val → Prop}
    (h : ∀ g, ∃ s g', one g = (.ok s, g') ∧ P s) (N : Option Nat) (g : Rng) :
    ∃ out g', simulateMany one N g = (.ok out, g') ∧
      (samplesOf out).length = N.getD 1 ∧ ((∃ s, out = .one s) ↔ N = none) ∧
      ∀ s ∈ samplesOf out, P s := by
  cases N with
  | none =>
    obtain ⟨s, g', e, hP⟩ := h g
    refine ⟨.one s, g', by rw [simulateMany, Py.bind_apply, e]; rfl, rfl, by simp, ?_⟩
    intro s' hs
    rw [List.mem_singleton.1 hs]; exact hP
  | some n =>
    have : ∀ n g, ∃ l g', simulateMany.go one n g = (.ok l, g') ∧ l.length = n ∧ ∀ s ∈ l, P s := by
      intro n
      induction n with
      | zero => exact fun g => ⟨[], g, rfl, rfl, nofun⟩
      | succ n ih =>
        intro g
        obtain ⟨s, g', e, hP⟩ := h g
        obtain ⟨l, g'', e', hl, hPl⟩ := ih g'
        refine ⟨s :: l, g'', ?_, by rw [List.length_cons, hl], ?_⟩
        · rw [simulateMany.go, Py.bind_apply, e]
          dsimp only
          rw [Py.bind_apply, e']
          rfl
        · intro s' hs
          rcases List.mem_cons.1 hs with rfl | hs
          · exact hP
          · exact hPl s' hs
    obtain ⟨l, g', e, hl, hP⟩ := this n g
    refine ⟨.many l, g', ?_, by rw [← hl]; rfl, by simp, hP⟩
    rw [simulateMany, Py.bind_apply, e]
    rfl

/-- **C82.** `simulate` on any regression with a history succeeds for every legal call and every
state of the generator, with one sample or a list of as many as asked for.  Each sample names the
output.  For a held row it is the value held; for a new row it is a number. -/
theorem C82 {m : LinReg} {rows : List RegRow} (h : RegHistory m rows) {o : Var} (ho : m.outputs = [o])
    (r : RowId) {ins : Dict Var Val} {y : List Val} (hy : m.processInputs ins = .ok y)
    (N : Option Nat) (rng : Rng) :
    ∃ out rng', m.simulate r [o] [] ins N rng = (.ok out, rng') ∧
      (samplesOf out).length = N.getD 1 ∧ ((∃ s, out = .one s) ↔ N = none) ∧
      ∀ s ∈ samplesOf out, (∀ x, Dict.get? m.data r = some x → s = [(o, x)]) ∧
        (Dict.get? m.data r = none → ∃ q, s = [(o, .num q)]) := by
  refine simulateMany_all (fun g => ?_) N rng
  have h1 := regression_sample h ho r hy g
  cases hx : Dict.get? m.data r with
  | none =>
    obtain ⟨q, g', e⟩ := h1.2 hx
    exact ⟨_, _, e, nofun, fun _ => ⟨q, rfl⟩⟩
  | some x =>
    refine ⟨_, _, h1.1 x hx, fun x' e => ?_, nofun⟩
    rw [Option.some.inj e]

example := C82 Concrete.reg1_history (o := 7) rfl (some 0) (ins := Concrete.regIns)
  (y := [.num 1, .num (1/2), .num 0, .num 1]) rfl (some 3)

end Props
end Cgpm2
