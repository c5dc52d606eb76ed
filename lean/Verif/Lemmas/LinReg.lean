import Verif.Spec.LinReg
import Verif.Lemmas.LinRegMath
import Verif.Lemmas.Dict
import Verif.Lemmas.Hypers

/-! What a regression holds after a history of observations, and its densities in closed form. -/

namespace Cgpm2.LinReg
open Spec Matrix

/-- A value as a real number. -/
def real : Val → ℝ
  | .num q => q
  | .nan => 0

theorem numbers_some {l : List Val} (h : Val.nan ∉ l) : numbers l = some (l.map real) := by
  induction l with
  | nil => rfl
  | cons v l ih =>
    cases v with
    | nan => simp at h
    | num q => rw [numbers, ih (by simpa using h)]; rfl

theorem numbers_none {l : List Val} (h : Val.nan ∈ l) : numbers l = none := by
  induction l with
  | nil => simp at h
  | cons v l ih =>
    cases v with
    | nan => rfl
    | num q => rw [numbers, ih (by simpa using h)]; rfl

theorem mapM_numbers_some {Y : List (List Val)} (h : ∀ row ∈ Y, Val.nan ∉ row) :
    Y.mapM numbers = some (Y.map (List.map real)) := by
  induction Y with
  | nil => rfl
  | cons r Y ih =>
    rw [List.mapM_cons, numbers_some (h r (by simp)), ih fun row hr => h row (by simp [hr])]
    rfl

theorem mapM_numbers_none {Y : List (List Val)} (h : ∃ row ∈ Y, Val.nan ∈ row) :
    Y.mapM numbers = none := by
  induction Y with
  | nil => simp at h
  | cons r Y ih =>
    rw [List.mapM_cons]
    by_cases hr : Val.nan ∈ r
    · rw [numbers_none hr]; rfl
    · rw [numbers_some hr, ih (by simpa [hr] using h)]; rfl

variable {p : Nat}

/-- The rows of the design matrix. -/
def design (p : Nat) (Y : List (List Val)) : List (Fin p → ℝ) := Y.map fun row => vec p (row.map real)

theorem posterior_some {V : Matrix (Fin p) (Fin p) ℝ} (hV : V.PosDef) (mu : Fin p → ℝ) (a b : ℝ)
    {Y : List (List Val)} {x : List Val} (hl : Y.length = x.length) (hp : ∀ row ∈ Y, row.length = p)
    (hY : ∀ row ∈ Y, Val.nan ∉ row) (hx : Val.nan ∉ x) :
    posteriorHypers (x.length : Int) Y x a b mu V = .ok (some
      ⟨a + (x.length : ℝ) / 2, scale b mu V (design p Y) (x.map real),
        (prec V (design p Y))⁻¹ *ᵥ lin mu V (design p Y) (x.map real), prec V (design p Y)⟩) := by
  classical
  unfold posteriorHypers
  by_cases h0 : x.length = 0
  · obtain rfl : x = [] := List.length_eq_zero_iff.1 h0
    obtain rfl : Y = [] := List.length_eq_zero_iff.1 (by simpa using hl)
    simp only [List.length_nil, Nat.cast_zero, if_true, and_self, if_neg hV.det_pos.ne', zero_div, add_zero,
      design, List.map_nil, scale_nil hV]
    simp only [prec, gram_nil, add_zero, lin, cross_nil, nonsing_inv_nonsing_inv _ (det_ne hV),
      mulVec_mulVec, mul_nonsing_inv _ (det_ne hV), one_mulVec]
  · rw [if_neg (by exact_mod_cast h0), if_neg (by simp only [not_not]; exact ⟨by rw [hl], hp⟩),
      if_neg (by simp), if_neg hV.det_pos.ne', mapM_numbers_some hY, numbers_some hx]
    dsimp only
    have hd : (Y.map (List.map real)).map (vec p) = design p Y := by simp [design]
    rw [hd, if_neg (show ¬ (V⁻¹ + gram (design p Y)).det = 0 from (prec_posDef hV (design p Y)).det_pos.ne')]
    have hm : prec V (design p Y) *ᵥ ((prec V (design p Y))⁻¹ *ᵥ lin mu V (design p Y) (x.map real)) =
        lin mu V (design p Y) (x.map real) := by
      rw [mulVec_mulVec, mul_nonsing_inv _ (det_ne (prec_posDef hV _)), one_mulVec]
    refine congrArg _ (congrArg _ ?_)
    congr 1
    change b + 1 / 2 * (_ + _ - ((prec V (design p Y))⁻¹ *ᵥ lin mu V (design p Y) (x.map real)) ⬝ᵥ
      (prec V (design p Y) *ᵥ ((prec V (design p Y))⁻¹ *ᵥ lin mu V (design p Y) (x.map real)))) = _
    rw [hm, dotProduct_comm _ (lin mu V (design p Y) (x.map real))]
    rfl

theorem posterior_nan {V : Matrix (Fin p) (Fin p) ℝ} (hV : V.PosDef) (mu : Fin p → ℝ) (a b : ℝ)
    {Y : List (List Val)} {x : List Val} (hl : Y.length = x.length) (hp : ∀ row ∈ Y, row.length = p)
    (h : (∃ row ∈ Y, Val.nan ∈ row) ∨ Val.nan ∈ x) :
    posteriorHypers (x.length : Int) Y x a b mu V = .ok none := by
  classical
  unfold posteriorHypers
  have h0 : x.length ≠ 0 := by
    intro h0
    obtain rfl : x = [] := List.length_eq_zero_iff.1 h0
    obtain rfl : Y = [] := List.length_eq_zero_iff.1 (by simpa using hl)
    simp at h
  rw [if_neg (by exact_mod_cast h0), if_neg (by simp only [not_not]; exact ⟨by rw [hl], hp⟩),
      if_neg (by simp), if_neg hV.det_pos.ne']
  rcases h with h | h
  · rw [mapM_numbers_none h]
  · rw [numbers_none h]
    split
    · next h => simp at h
    · rfl

/-- The logarithm of the normalising constant. -/
noncomputable def zOf (a b d : ℝ) : ℝ := gammaln a + Real.log (Real.sqrt (1 / d)) + -(a * Real.log b)

theorem calcLogZ_pos {A : Matrix (Fin p) (Fin p) ℝ} (hA : A.PosDef) {b : ℝ} (hb : 0 < b) (a : ℝ) :
    calcLogZ a b A = .ok (.fin (zOf a b A.det)) := by
  unfold calcLogZ
  rw [if_pos hA.det_pos, if_pos hb]
  rfl

theorem predictive_some {V : Matrix (Fin p) (Fin p) ℝ} (hV : V.PosDef) (mu : Fin p → ℝ) (a : ℝ)
    {b : ℝ} (hb : 0 < b)
    {Y : List (List Val)} {x : List Val} (hl : Y.length = x.length) (hp : ∀ row ∈ Y, row.length = p)
    (hY : ∀ row ∈ Y, Val.nan ∉ row) (hx : Val.nan ∉ x) {ys : List Val} (hys : ys.length = p)
    (hy : Val.nan ∉ ys) (q : ℚ) :
    calcPredictiveLogp (.num q) ys (x.length : Int) Y x a b mu V = .ok (.fin (-(1/2) * log2pi +
      zOf (a + ((x.length : ℝ) + 1) / 2)
        (scale b mu V (design p (Y ++ [ys])) ((x ++ [Val.num q]).map real))
        (prec V (design p (Y ++ [ys]))).det -
      zOf (a + (x.length : ℝ) / 2) (scale b mu V (design p Y) (x.map real))
        (prec V (design p Y)).det)) := by
  unfold calcPredictiveLogp
  have h2 := posterior_some hV mu a b (Y := Y ++ [ys]) (x := x ++ [Val.num q]) (by simp [hl])
    (by intro row hr; rcases List.mem_append.1 hr with h | h
        · exact hp row h
        · rw [List.mem_singleton.1 h]; exact hys)
    (by intro row hr; rcases List.mem_append.1 hr with h | h
        · exact hY row h
        · rw [List.mem_singleton.1 h]; exact hy)
    (by simp [hx])
  have e : ((x ++ [Val.num q]).length : Int) = (x.length : Int) + 1 := by simp
  rw [posterior_some hV mu a b hl hp hY hx, ← e, h2]
  have hb1 : 0 < scale b mu V (design p Y) (x.map real) :=
    scale_pos hV hb mu _ _ (by simp [design, hl])
  have hb2 : 0 < scale b mu V (design p (Y ++ [ys])) ((x ++ [Val.num q]).map real) :=
    scale_pos hV hb mu _ _ (by simp [design, hl])
  change (do
    let ZN ← calcLogZ _ _ _
    let ZM ← calcLogZ _ _ _
    pure (Fl.fin (-(1/2) * log2pi) + ZM - ZN) : Except Err Fl) = _
  rw [calcLogZ_pos (prec_posDef hV _) hb1, calcLogZ_pos (prec_posDef hV _) hb2]
  simp only [List.length_append, List.length_singleton, Nat.cast_add, Nat.cast_one]
  rfl

theorem predictive_nan {V : Matrix (Fin p) (Fin p) ℝ} (hV : V.PosDef) (mu : Fin p → ℝ) (a : ℝ)
    {b : ℝ} (hb : 0 < b)
    {Y : List (List Val)} {x : List Val} (hl : Y.length = x.length) (hp : ∀ row ∈ Y, row.length = p)
    {ys : List Val} (hys : ys.length = p) (v : Val)
    (h : (∃ row ∈ Y ++ [ys], Val.nan ∈ row) ∨ Val.nan ∈ x ++ [v]) :
    calcPredictiveLogp v ys (x.length : Int) Y x a b mu V = .ok .nan := by
  unfold calcPredictiveLogp
  have h2 := posterior_nan hV mu a b (Y := Y ++ [ys]) (x := x ++ [v]) (by simp [hl])
    (by intro row hr; rcases List.mem_append.1 hr with h | h
        · exact hp row h
        · rw [List.mem_singleton.1 h]; exact hys) h
  have e : ((x ++ [v]).length : Int) = (x.length : Int) + 1 := by simp
  rw [← e, h2]
  by_cases hn : (∃ row ∈ Y, Val.nan ∈ row) ∨ Val.nan ∈ x
  · rw [posterior_nan hV mu a b hl hp hn]; rfl
  · simp only [not_or, not_exists, not_and] at hn
    rw [posterior_some hV mu a b hl hp hn.1 hn.2]
    change (do
      let ZN ← calcLogZ _ _ _
      let ZM ← Except.ok Fl.nan
      pure (Fl.fin (-(1/2) * log2pi) + ZM - ZN) : Except Err Fl) = _
    rw [calcLogZ_pos (prec_posDef hV _) (scale_pos hV hb mu _ _ (by simp [design, hl]))]
    rfl

theorem marginal_some {V : Matrix (Fin p) (Fin p) ℝ} (hV : V.PosDef) (mu : Fin p → ℝ) (a : ℝ)
    {b : ℝ} (hb : 0 < b)
    {Y : List (List Val)} {x : List Val} (hl : Y.length = x.length) (hp : ∀ row ∈ Y, row.length = p)
    (hY : ∀ row ∈ Y, Val.nan ∉ row) (hx : Val.nan ∉ x) :
    calcLogpdfMarginal (x.length : Int) Y x a b mu V = .ok (.fin (-((x.length : ℝ) / 2) * log2pi +
      zOf (a + (x.length : ℝ) / 2) (scale b mu V (design p Y) (x.map real))
        (prec V (design p Y)).det - zOf a b (V⁻¹).det)) := by
  unfold calcLogpdfMarginal
  rw [posterior_some hV mu a b hl hp hY hx, calcLogZ_pos hV.inv hb]
  change (do
      let ZN ← calcLogZ _ _ _
      pure (Fl.fin (-((((x.length : Nat) : Int) : ℝ) / 2) * log2pi) + ZN - Fl.fin (zOf a b (V⁻¹).det)) :
        Except Err Fl) = _
  rw [calcLogZ_pos (prec_posDef hV _) (scale_pos hV hb mu _ _ (by simp [design, hl]))]
  simp only [Int.cast_natCast]
  rfl

theorem marginal_nan {V : Matrix (Fin p) (Fin p) ℝ} (hV : V.PosDef) (mu : Fin p → ℝ) (a : ℝ)
    {b : ℝ} (hb : 0 < b)
    {Y : List (List Val)} {x : List Val} (hl : Y.length = x.length) (hp : ∀ row ∈ Y, row.length = p)
    (h : (∃ row ∈ Y, Val.nan ∈ row) ∨ Val.nan ∈ x) :
    calcLogpdfMarginal (x.length : Int) Y x a b mu V = .ok .nan := by
  unfold calcLogpdfMarginal
  rw [posterior_nan hV mu a b hl hp h, calcLogZ_pos hV.inv hb]
  rfl

/-! ### Coding of inputs -/

theorem dummyCodeOne_code {codes : Dict Var Nat} {i : Var} {v : Val} {block : List Val}
    (h : dummyCodeOne codes i v = .ok block) : IsCode (Dict.get? codes i) v block := by
  unfold dummyCodeOne at h
  cases hg : Dict.get? codes i with
  | none =>
    rw [hg] at h
    cases h; rfl
  | some L =>
    rw [hg] at h
    cases v with
    | nan => exact nomatch h
    | num q =>
      dsimp only at h
      split at h
      · next hq =>
        split at h
        · next hlt =>
          split at h
          · next hw =>
            cases h
            have hd : q.den = 1 := by simpa [isWhole] using hw
            have hq0 : 0 ≤ q.num := Rat.num_nonneg.2 hq.1
            obtain ⟨k, hk⟩ : ∃ k : Nat, q.num = k := ⟨q.num.toNat, by omega⟩
            have hqk : q = (k : ℚ) := by
              rw [← Rat.num_div_den q, hd, hk]; simp
            have ht : (truncate q).toNat = k := by
              rw [truncate, hd, hk]; simp
            refine ⟨by simp, fun j hj => ?_⟩
            rw [ht, List.getElem?_set]
            subst hqk
            by_cases hjk : k = j
            · subst hjk; simp [hj]
            · rw [if_neg hjk, List.getElem?_replicate, if_pos hj, if_neg]
              intro e; apply hjk
              have := Val.num.inj e; exact_mod_cast this
          · exact nomatch h
        · next hlt =>
          cases h
          refine ⟨by simp, fun j hj => ?_⟩
          rw [List.getElem?_replicate, if_pos hj, if_neg]
          intro e
          have e := Val.num.inj e
          apply hlt
          rw [e]
          have : (j : Int) < (L : Int) - 1 := by omega
          exact_mod_cast this
      · exact nomatch h

theorem dummyCodeOne_range {codes : Dict Var Nat} {i : Var} {v : Val} {block : List Val} {L : Nat}
    (hL : Dict.get? codes i = some L) (h : dummyCodeOne codes i v = .ok block) :
    ∃ q, v = .num q ∧ 0 ≤ q ∧ q < L := by
  unfold dummyCodeOne at h
  rw [hL] at h
  cases v with
  | nan => exact nomatch h
  | num q =>
    dsimp only at h
    split at h
    · next hq => exact ⟨q, rfl, hq⟩
    · exact nomatch h

theorem dummyCodeOne_ok {codes : Dict Var Nat} {i : Var} {v : Val}
    (h : ∀ L, Dict.get? codes i = some L → ∃ k : Nat, v = .num k ∧ k < L) :
    ∃ block, dummyCodeOne codes i v = .ok block := by
  unfold dummyCodeOne
  cases hg : Dict.get? codes i with
  | none => exact ⟨_, rfl⟩
  | some L =>
    obtain ⟨k, rfl, hk⟩ := h L hg
    dsimp only
    rw [if_pos ⟨by positivity, by exact_mod_cast hk⟩]
    split
    · rw [if_pos (by simp [isWhole])]
      exact ⟨_, rfl⟩
    · exact ⟨_, rfl⟩

theorem code_present {o : Option Nat} {v : Val} {block : List Val} (h : IsCode o v block)
    (hv : v ≠ .nan) : Val.nan ∉ block := by
  cases o with
  | none => cases h; simpa using Ne.symm hv
  | some L =>
    intro hm
    obtain ⟨j, hj, e⟩ := List.getElem_of_mem hm
    have := h.2 j (by rw [← h.1]; exact hj)
    rw [List.getElem?_eq_getElem hj, e] at this
    exact nomatch this

/-- Accepted inputs, coded. -/
theorem processInputs_ok {m : LinReg} {ins : Dict Var Val} {y : List Val}
    (h : m.processInputs ins = .ok y) : ∃ blocks : List (List Val),
      y = .num 1 :: blocks.flatten ∧ blocks.flatten.length = m.p - 1 ∧
      List.Forall₂ (fun i block => ∃ v, Dict.get? ins i = some v ∧
        dummyCodeOne m.levels i v = .ok block) m.inputs blocks := by
  unfold processInputs at h
  cases hb : (m.inputs.mapM fun i => (do
    let v ← Dict.getItem ins i
    dummyCodeOne m.levels i v : Except Err (List Val))) with
  | error e => rw [hb] at h; exact nomatch h
  | ok blocks =>
    rw [hb] at h
    change (if blocks.flatten.length = m.p - 1 then Except.ok (Val.num 1 :: blocks.flatten)
      else Except.error Err.assertionError) = _ at h
    split at h
    · next hl =>
      refine ⟨blocks, (Except.ok.inj h).symm, hl, ?_⟩
      rw [mapM_ok_iff] at hb
      refine hb.imp fun i block hi => ?_
      rw [Dict.getItem_eq] at hi
      cases hg : Dict.get? ins i with
      | none => rw [hg] at hi; exact nomatch hi
      | some v => rw [hg] at hi; exact ⟨v, rfl, hi⟩
    · exact nomatch h

theorem processInputs_length {m : LinReg} {ins : Dict Var Val} {y : List Val}
    (h : m.processInputs ins = .ok y) : y.length = m.p := by
  obtain ⟨blocks, rfl, hl, -⟩ := processInputs_ok h
  rw [List.length_cons, hl]
  change regDim m.distLevels - 1 + 1 = regDim m.distLevels
  unfold regDim; omega

theorem processInputs_present {m : LinReg} {ins : Dict Var Val} {y : List Val}
    (h : m.processInputs ins = .ok y) (hp : InputsPresent m.inputs ins) : Val.nan ∉ y := by
  obtain ⟨blocks, rfl, -, hb⟩ := processInputs_ok h
  simp only [List.mem_cons, List.mem_flatten, not_or, not_exists, not_and]
  refine ⟨nofun, fun block hm => ?_⟩
  obtain ⟨i, hi, v, hv, hc⟩ : ∃ i ∈ m.inputs, ∃ v, Dict.get? ins i = some v ∧
      dummyCodeOne m.levels i v = .ok block := by
    obtain ⟨j, hj, rfl⟩ := List.getElem_of_mem hm
    have hj' : j < m.inputs.length := by rw [hb.length_eq]; exact hj
    exact ⟨_, List.getElem_mem hj', hb.get hj' hj⟩
  exact code_present (dummyCodeOne_code hc) fun e => hp i hi (by rw [hv, e])

theorem processInputs_absent {m : LinReg} {ins : Dict Var Val} {y : List Val}
    (h : m.processInputs ins = .ok y) (hp : ¬ InputsPresent m.inputs ins) : Val.nan ∈ y := by
  obtain ⟨blocks, rfl, -, hb⟩ := processInputs_ok h
  simp only [InputsPresent, not_forall, not_not] at hp
  obtain ⟨i, hi, hg⟩ := hp
  obtain ⟨j, hj, rfl⟩ := List.getElem_of_mem hi
  have hj' : j < blocks.length := by rw [← hb.length_eq]; exact hj
  obtain ⟨v, hv, hc⟩ := hb.get hj hj'
  simp only [List.get_eq_getElem] at hv hc
  rw [hg] at hv
  cases Option.some.inj hv
  refine List.mem_cons_of_mem _ (List.mem_flatten.2 ⟨blocks[j], List.getElem_mem hj', ?_⟩)
  unfold dummyCodeOne at hc
  split at hc
  · rw [← Except.ok.inj hc]; simp
  · exact nomatch hc

/-! ### Histories -/

/-- The coded inputs. -/
def code (m : LinReg) (ins : Dict Var Val) : List Val :=
  match m.processInputs ins with
  | .ok y => y
  | .error _ => []

theorem code_of_ok {m : LinReg} {ins : Dict Var Val} {y : List Val}
    (h : m.processInputs ins = .ok y) : m.code ins = y := by rw [code, h]

/-- What a regression with a history holds. -/
structure Inv (m : LinReg) (rows : List RegRow) : Prop where
  out : ∃ o, m.outputs = [o]
  ins : m.distLevels.length = m.inputs.length
  levels : m.levels = levelsOf m.inputs m.distLevels
  count : m.N = rows.length
  data : m.data = rows.map fun t => (t.1, t.2.1)
  raw : m.dataYraw = rows.map fun t => (t.1, m.inputs.map fun i => Dict.get? t.2.2 i)
  dum : m.dataYdum = rows.map fun t => (t.1, m.code t.2.2)
  coded : ∀ t ∈ rows, m.processInputs t.2.2 = .ok (m.code t.2.2)
  nodup : (rows.map Prod.fst).Nodup
  aPos : 0 < m.a
  bPos : 0 < m.b
  vPos : m.V.PosDef

/-- The regression after an accepted row. -/
def with1 (m : LinReg) (r : RowId) (x : Val) (ins : Dict Var Val) : LinReg :=
  { m with
    N := m.N + 1
    data := Dict.set m.data r x
    dataYraw := Dict.set m.dataYraw r (m.inputs.map fun i => Dict.get? ins i)
    dataYdum := Dict.set m.dataYdum r (m.code ins) }

theorem observe_eq {m : LinReg} {o : Var} (ho : m.outputs = [o]) (r : RowId) (ob ins : Dict Var Val) :
    (∃ x, ob = [(o, x)] ∧ r ∉ Dict.keys m.data ∧ m.processInputs ins = .ok (m.code ins) ∧
      observe r ob ins m = (.ok (), m.with1 r x ins)) ∨
    (∃ e, observe r ob ins m = (.error e, m)) := by
  by_cases hr : r ∈ Dict.keys m.data
  · right
    have hh : Dict.has m.data r = true := (Dict.has_iff _ _).2 hr
    exact ⟨.assertionError, by unfold observe; simp [Py.bind_apply, Py.assert_apply, hh]⟩
  · have hh : Dict.has m.data r = false := (Dict.has_eq_false_iff _ _).2 hr
    by_cases hk : Dict.keys ob = m.outputs
    · obtain ⟨x, rfl⟩ : ∃ x, ob = [(o, x)] := by
        rw [ho] at hk
        rcases ob with _ | ⟨⟨k, x⟩, _ | ⟨kv, ob⟩⟩
        · simp [Dict.keys] at hk
        · simp [Dict.keys] at hk; subst hk; exact ⟨x, rfl⟩
        · simp [Dict.keys] at hk
      have hf : firstOutput m.outputs = .ok o := by rw [ho]; rfl
      cases hc : m.processInputs ins with
      | error e =>
        right
        refine ⟨e, ?_⟩
        unfold observe
        simp only [Py.bind_apply, Py.get_apply, Py.assert_apply, hh, if_true, hk, Py.lift_apply, hf,
          getItem_single, hc]
      | ok y =>
        left
        refine ⟨x, rfl, hr, by rw [code_of_ok hc], ?_⟩
        unfold observe with1
        simp only [Py.bind_apply, Py.get_apply, Py.assert_apply, hh, if_true, hk, Py.lift_apply, hf,
          getItem_single, hc, Py.modify_apply, code_of_ok hc]
    · right
      exact ⟨.assertionError, by unfold observe; simp [Py.bind_apply, Py.assert_apply, hh, hk]⟩

theorem observe_ok {m : LinReg} {o : Var} (ho : m.outputs = [o]) {r : RowId}
    (hr : r ∉ Dict.keys m.data) (x : Val) {ins : Dict Var Val} {y : List Val}
    (hc : m.processInputs ins = .ok y) :
    observe r [(o, x)] ins m = (.ok (), m.with1 r x ins) := by
  have hh : Dict.has m.data r = false := (Dict.has_eq_false_iff _ _).2 hr
  have hf : firstOutput m.outputs = .ok o := by rw [ho]; rfl
  have hk : Dict.keys [(o, x)] = m.outputs := by rw [ho]; rfl
  unfold observe with1
  simp only [Py.bind_apply, Py.get_apply, Py.assert_apply, hh, if_true, hk, Py.lift_apply, hf,
    getItem_single, hc, Py.modify_apply, code_of_ok hc]

theorem Inv.with1 {m : LinReg} {rows : List RegRow} (h : m.Inv rows) {r : RowId}
    (hr : r ∉ Dict.keys m.data) (x : Val) {ins : Dict Var Val}
    (hc : m.processInputs ins = .ok (m.code ins)) : (m.with1 r x ins).Inv (rows ++ [(r, x, ins)]) := by
  have hr' : r ∉ rows.map Prod.fst := by
    rw [h.data, Dict.keys, List.map_map] at hr; exact hr
  have hc' : ∀ i, (m.with1 r x ins).code i = m.code i := fun i => rfl
  have hp' : ∀ i, (m.with1 r x ins).processInputs i = m.processInputs i := fun i => rfl
  have hdum : r ∉ Dict.keys m.dataYdum := by
    rw [h.dum, Dict.keys, List.map_map]; exact hr'
  exact
    { out := h.out
      ins := h.ins
      levels := h.levels
      count := by
        change m.N + 1 = _
        rw [h.count]; simp
      data := by
        change Dict.set m.data r x = _
        rw [Dict.set_of_not_mem _ _ _ hr, h.data]; simp
      raw := by
        change Dict.set m.dataYraw r _ = _
        have : r ∉ Dict.keys m.dataYraw := by rw [h.raw, Dict.keys, List.map_map]; exact hr'
        rw [Dict.set_of_not_mem _ _ _ this, h.raw]
        simp only [List.map_append, List.map_cons, List.map_nil]
        rfl
      dum := by
        change Dict.set m.dataYdum r (m.code ins) = _
        rw [Dict.set_of_not_mem _ _ _ hdum, h.dum]; simp [hc']
      coded := by
        intro t ht
        rw [hp', hc']
        rcases List.mem_append.1 ht with ht | ht
        · exact h.coded t ht
        · rw [List.mem_singleton.1 ht]; exact hc
      nodup := by
        rw [List.map_append]
        refine List.nodup_append.2 ⟨h.nodup, by simp, ?_⟩
        intro a ha b hb e
        simp only [List.map_cons, List.map_nil, List.mem_singleton] at hb
        exact hr' (by rw [← hb, ← e]; exact ha)
      aPos := h.aPos
      bPos := h.bPos
      vPos := h.vPos }

theorem setHypers_cases (m : LinReg) (h : Dict String (Option ℝ)) :
    (∃ e, setHypers h m = (.error e, m)) ∨
    ∃ a b : ℝ, Dict.get? h "a" = some (some a) ∧ Dict.get? h "b" = some (some b) ∧ 0 < a ∧ 0 < b ∧
      setHypers h m = (.ok (), { m with a := a, b := b }) := by
  unfold setHypers
  rcases ha : Dict.get? h "a" with _ | a
  · left; exact ⟨.keyError, by simp [Py.bind_apply, Dict.getItem, ha]⟩
  by_cases pa : ∃ r, a = some r ∧ 0 < r
  · rcases hb : Dict.get? h "b" with _ | b
    · left; exact ⟨.keyError, by simp [Py.bind_apply, Dict.getItem, ha, hb, Py.assert_apply, pa]⟩
    by_cases pb : ∃ r, b = some r ∧ 0 < r
    · right
      obtain ⟨a, rfl, ha0⟩ := pa
      obtain ⟨b, rfl, hb0⟩ := pb
      exact ⟨a, b, rfl, rfl, ha0, hb0,
        by simp [Py.bind_apply, Dict.getItem, ha, hb, Py.assert_apply, ha0, hb0]⟩
    · left
      exact ⟨.assertionError, by simp [Py.bind_apply, Dict.getItem, ha, hb, Py.assert_apply, pa, pb]⟩
  · left
    exact ⟨.assertionError, by simp [Py.bind_apply, Dict.getItem, ha, Py.assert_apply, pa]⟩

theorem init_inv {outputs inputs : List Var} {lv : List Nat} {a b : Option ℝ}
    {mu : Option (Fin (regDim lv) → ℝ)}
    {V : Option (Matrix (Fin (regDim lv)) (Fin (regDim lv)) ℝ)} {params : Dict String ℝ}
    {m : LinReg} (ha : ∀ r, a = some r → 0 < r) (hb : ∀ r, b = some r → 0 < r)
    (hV : ∀ W, V = some W → W.PosDef)
    (h : LinReg.init outputs inputs lv a b mu V params = .ok m) : m.Inv [] := by
  unfold LinReg.init at h
  split at h
  · exact nomatch h
  next ho =>
  split at h
  · exact nomatch h
  split at h
  · exact nomatch h
  next o os =>
  split at h
  · exact nomatch h
  split at h
  · exact nomatch h
  next hl =>
  cases h
  have hos : os = [] := by simpa using ho
  subst hos
  exact
    { out := ⟨o, rfl⟩, ins := not_not.1 hl, levels := rfl, count := rfl, data := rfl, raw := rfl, dum := rfl
      coded := nofun, nodup := List.nodup_nil
      aPos := by cases a with
        | none => exact one_pos
        | some r => exact ha r rfl
      bPos := by cases b with
        | none => exact one_pos
        | some r => exact hb r rfl
      vPos := by cases V with
        | none => exact PosDef.one
        | some W => exact hV W rfl }

theorem _root_.Cgpm2.Spec.RegHistory.inv {m : LinReg} {rows : List RegRow} (h : RegHistory m rows) :
    m.Inv rows := by
  induction h with
  | init ha hb hV h => exact init_inv ha hb hV h
  | @observe m rows _ r o x ob ins ho hx hr ih =>
    rcases observe_eq ho r ob ins with ⟨x', rfl, hr', hc, e⟩ | ⟨e', e⟩
    · have : x' = x := by simpa [Dict.get?] using hx
      subst this
      rw [e]
      exact ih.with1 hr' _ hc
    · rw [e] at hr; exact nomatch hr
  | @rejected m rows _ r ob ins e hr ih =>
    obtain ⟨o, ho⟩ := ih.out
    rcases observe_eq ho r ob ins with ⟨x', rfl, hr', hc, e⟩ | ⟨e', e⟩
    · rw [e] at hr; exact nomatch hr
    · rw [e]; exact ih
  | @setHypers m rows _ hy ih =>
    rcases setHypers_cases m hy with ⟨e, he⟩ | ⟨a, b, -, -, ha, hb, he⟩
    · rw [he]; exact ih
    · rw [he]
      exact { ih with aPos := ha, bPos := hb }

/-! ### Densities of a regression with a history -/

/-- The rows of the design matrix of a history. -/
def rowsX (m : LinReg) (rows : List RegRow) : List (Fin m.p → ℝ) :=
  rows.map fun t => vec m.p ((m.code t.2.2).map real)

/-- The values of a history. -/
def rowsY (rows : List RegRow) : List ℝ := rows.map fun t => real t.2.1

theorem Inv.ydum {m : LinReg} {rows : List RegRow} (h : m.Inv rows) :
    Dict.values m.dataYdum = rows.map fun t => m.code t.2.2 := by
  rw [h.dum]; simp [Dict.values]

theorem Inv.vals {m : LinReg} {rows : List RegRow} (h : m.Inv rows) :
    Dict.values m.data = rows.map fun t => t.2.1 := by
  rw [h.data]; simp [Dict.values]

theorem Inv.len {m : LinReg} {rows : List RegRow} (h : m.Inv rows) :
    ∀ row ∈ rows.map (fun t => m.code t.2.2), row.length = m.p := by
  intro row hr
  obtain ⟨t, ht, rfl⟩ := List.mem_map.1 hr
  exact processInputs_length (h.coded t ht)

theorem Inv.noNanX {m : LinReg} {rows : List RegRow} (h : m.Inv rows)
    (hc : ∀ t ∈ rows, RegRow.Complete m.inputs t) :
    ∀ row ∈ rows.map (fun t => m.code t.2.2), Val.nan ∉ row := by
  intro row hr
  obtain ⟨t, ht, rfl⟩ := List.mem_map.1 hr
  exact processInputs_present (h.coded t ht) (hc t ht).2

theorem noNanY {ins : List Var} {rows : List RegRow} (hc : ∀ t ∈ rows, RegRow.Complete ins t) :
    Val.nan ∉ rows.map (fun t => t.2.1) := by
  intro hm
  obtain ⟨t, ht, e⟩ := List.mem_map.1 hm
  exact (hc t ht).1 e

/-- The logarithm of the marginal density of complete data. -/
theorem Inv.score {m : LinReg} {rows : List RegRow} (h : m.Inv rows)
    (hc : ∀ t ∈ rows, RegRow.Complete m.inputs t) :
    m.logpdfScore = .ok (.fin (-((rows.length : ℝ) / 2) * log2pi +
      zOf (m.a + (rows.length : ℝ) / 2) (scale m.b m.mu m.V (m.rowsX rows) (rowsY rows))
        (prec m.V (m.rowsX rows)).det - zOf m.a m.b (m.V⁻¹).det)) := by
  have := marginal_some h.vPos m.mu m.a h.bPos (Y := rows.map fun t => m.code t.2.2)
    (x := rows.map fun t => t.2.1) (by simp) h.len (h.noNanX hc) (noNanY hc)
  rw [List.length_map] at this
  rw [logpdfScore, h.count, h.ydum, h.vals, this]
  simp only [design, List.map_map, rowsX, rowsY]
  rfl

theorem Inv.guard {m : LinReg} {rows : List RegRow} (_h : m.Inv rows) {o : Var} (ho : m.outputs = [o])
    {r : RowId} (hr : r ∉ Dict.keys m.data) (v : Val) {ins : Dict Var Val} {y : List Val}
    (hy : m.processInputs ins = .ok y) : m.logpdf r [(o, v)] [] ins =
      calcPredictiveLogp v y m.N (Dict.values m.dataYdum) (Dict.values m.data) m.a m.b m.mu m.V := by
  have hh : Dict.has m.data r = false := (Dict.has_eq_false_iff _ _).2 hr
  have hf : firstOutput m.outputs = .ok o := by rw [ho]; rfl
  have hk : Dict.keys [(o, v)] = m.outputs := by rw [ho]; rfl
  unfold logpdf
  rw [hh, if_neg (by simp), if_neg (by simp), if_neg (by simpa using hk), hf]
  change (do
    let x ← Dict.getItem [(o, v)] o
    let yDum ← m.processInputs ins
    calcPredictiveLogp x yDum m.N (Dict.values m.dataYdum) (Dict.values m.data) m.a m.b m.mu m.V :
      Except Err Fl) = _
  rw [getItem_single, hy]
  rfl

/-- The logarithm of the predictive density given complete data. -/
theorem Inv.predictive {m : LinReg} {rows : List RegRow} (h : m.Inv rows)
    (hc : ∀ t ∈ rows, RegRow.Complete m.inputs t) {o : Var} (ho : m.outputs = [o])
    {r : RowId} (hr : r ∉ Dict.keys m.data) (q : ℚ) {ins : Dict Var Val}
    (hy : m.processInputs ins = .ok (m.code ins)) (hi : InputsPresent m.inputs ins) :
    m.logpdf r [(o, .num q)] [] ins = .ok (.fin (-(1/2) * log2pi +
      zOf (m.a + ((rows.length : ℝ) + 1) / 2)
        (scale m.b m.mu m.V (m.rowsX (rows ++ [(r, .num q, ins)])) (rowsY (rows ++ [(r, .num q, ins)])))
        (prec m.V (m.rowsX (rows ++ [(r, .num q, ins)]))).det -
      zOf (m.a + (rows.length : ℝ) / 2) (scale m.b m.mu m.V (m.rowsX rows) (rowsY rows))
        (prec m.V (m.rowsX rows)).det)) := by
  rw [h.guard ho hr _ hy]
  have := predictive_some h.vPos m.mu m.a h.bPos (Y := rows.map fun t => m.code t.2.2)
    (x := rows.map fun t => t.2.1) (by simp) h.len (h.noNanX hc) (noNanY hc)
    (processInputs_length hy) (processInputs_present hy hi) q
  rw [List.length_map] at this
  rw [h.count, h.ydum, h.vals, this]
  simp only [design, List.map_map, rowsX, rowsY, List.map_append, List.map_cons, List.map_nil]
  rfl

/-! ### Order of the rows -/

theorem posterior_perm {V : Matrix (Fin p) (Fin p) ℝ} (hV : V.PosDef) (mu : Fin p → ℝ) (a b : ℝ)
    {Z Z' : List (List Val × Val)} (h : Z.Perm Z') (hp : ∀ z ∈ Z, z.1.length = p) :
    posteriorHypers (Z.length : Int) (Z.map Prod.fst) (Z.map Prod.snd) a b mu V =
      posteriorHypers (Z.length : Int) (Z'.map Prod.fst) (Z'.map Prod.snd) a b mu V := by
  have hp' : ∀ z ∈ Z', z.1.length = p := fun z hz => hp z (h.mem_iff.2 hz)
  have l1 : (Z.length : Int) = ((Z.map Prod.snd).length : Int) := by simp
  have l2 : (Z.length : Int) = ((Z'.map Prod.snd).length : Int) := by simp [h.length_eq]
  have hlen : ∀ row ∈ Z.map Prod.fst, row.length = p := by simpa using fun a b h => hp (a, b) h
  have hlen' : ∀ row ∈ Z'.map Prod.fst, row.length = p := by simpa using fun a b h => hp' (a, b) h
  by_cases hn : (∃ row ∈ Z.map Prod.fst, Val.nan ∈ row) ∨ Val.nan ∈ Z.map Prod.snd
  · have hn' : (∃ row ∈ Z'.map Prod.fst, Val.nan ∈ row) ∨ Val.nan ∈ Z'.map Prod.snd := by
      rcases hn with ⟨row, hr, hm⟩ | hm
      · exact Or.inl ⟨row, (h.map _).mem_iff.1 hr, hm⟩
      · exact Or.inr ((h.map _).mem_iff.1 hm)
    rw [l1, posterior_nan hV mu a b (by simp) hlen hn, ← l1, l2,
      posterior_nan hV mu a b (by simp) hlen' hn']
  · simp only [not_or, not_exists, not_and] at hn
    have hn1 : ∀ row ∈ Z'.map Prod.fst, Val.nan ∉ row := fun row hr => hn.1 row ((h.map _).mem_iff.2 hr)
    have hn2 : Val.nan ∉ Z'.map Prod.snd := fun hm => hn.2 ((h.map _).mem_iff.2 hm)
    rw [l1, posterior_some hV mu a b (by simp) hlen hn.1 hn.2, ← l1, l2,
      posterior_some hV mu a b (by simp) hlen' hn1 hn2]
    have hP : (Z.map fun z => (vec p (z.1.map real), real z.2)).Perm
        (Z'.map fun z => (vec p (z.1.map real), real z.2)) := h.map _
    have hs := scale_perm b mu V hP
    have hg : gram (design p (Z.map Prod.fst)) = gram (design p (Z'.map Prod.fst)) :=
      gram_perm ((h.map _).map _)
    have hcr := congrArg (fun f => f) ((cross_zip (Z.map fun z => (vec p (z.1.map real), real z.2))).trans
      ((funext fun i => (hP.map fun z => z.1 i * z.2).sum_eq).trans
        (cross_zip (Z'.map fun z => (vec p (z.1.map real), real z.2))).symm))
    simp only [List.map_map] at hs hcr
    simp only [design, List.map_map, Function.comp_def] at hg hs hcr ⊢
    rw [hs]
    simp only [prec, lin, hg, hcr, List.length_map, h.length_eq]

/-- The regression with other rows. -/
def withRows (m : LinReg) (rows : List RegRow) : LinReg :=
  { m with
    N := rows.length
    data := rows.map fun t => (t.1, t.2.1)
    dataYraw := rows.map fun t => (t.1, m.inputs.map fun i => Dict.get? t.2.2 i)
    dataYdum := rows.map fun t => (t.1, m.code t.2.2) }

theorem Inv.eq {m : LinReg} {rows : List RegRow} (h : m.Inv rows) : m = m.withRows rows := by
  have h1 := h.count
  have h2 := h.data
  have h3 := h.raw
  have h4 := h.dum
  unfold withRows
  rw [← h1, ← h2, ← h3, ← h4]

theorem with1_withRows (m : LinReg) {rows : List RegRow} {r : RowId} (hr : r ∉ rows.map Prod.fst)
    (x : Val) (ins : Dict Var Val) :
    (m.withRows rows).with1 r x ins = m.withRows (rows ++ [(r, x, ins)]) := by
  unfold with1
  have e1 : Dict.set (m.withRows rows).data r x = (m.withRows (rows ++ [(r, x, ins)])).data := by
    rw [Dict.set_of_not_mem]
    · simp [withRows]
    · change r ∉ Dict.keys (rows.map _)
      rw [Dict.keys, List.map_map]; exact hr
  have e2 : Dict.set (m.withRows rows).dataYraw r (m.inputs.map fun i => Dict.get? ins i) =
      (m.withRows (rows ++ [(r, x, ins)])).dataYraw := by
    rw [Dict.set_of_not_mem]
    · simp [withRows]
    · change r ∉ Dict.keys (rows.map _)
      rw [Dict.keys, List.map_map]; exact hr
  have e3 : Dict.set (m.withRows rows).dataYdum r (m.code ins) =
      (m.withRows (rows ++ [(r, x, ins)])).dataYdum := by
    rw [Dict.set_of_not_mem]
    · simp [withRows]
    · change r ∉ Dict.keys (rows.map _)
      rw [Dict.keys, List.map_map]; exact hr
  have e4 : (m.withRows rows).N + 1 = (m.withRows (rows ++ [(r, x, ins)])).N := by simp [withRows]
  change ({ m with
    N := (m.withRows rows).N + 1
    data := Dict.set (m.withRows rows).data r x
    dataYraw := Dict.set (m.withRows rows).dataYraw r (m.inputs.map fun i => Dict.get? ins i)
    dataYdum := Dict.set (m.withRows rows).dataYdum r (m.code ins) } : LinReg) = _
  rw [e1, e2, e3, e4]
  rfl

/-- Rows that are accepted one after the other are those that are new, distinct and with legal
inputs. -/
theorem observeRows_cases {o : Var} {m : LinReg} (ho : m.outputs = [o]) (new old : List RegRow) :
    (((∀ t ∈ new, t.1 ∉ old.map Prod.fst ∧ m.processInputs t.2.2 = .ok (m.code t.2.2)) ∧
        (new.map Prod.fst).Nodup) ∧
      observeRows o new (m.withRows old) = (.ok (), m.withRows (old ++ new))) ∨
    (¬ ((∀ t ∈ new, t.1 ∉ old.map Prod.fst ∧ m.processInputs t.2.2 = .ok (m.code t.2.2)) ∧
        (new.map Prod.fst).Nodup) ∧
      ∃ e, (observeRows o new (m.withRows old)).1 = .error e) := by
  induction new generalizing old with
  | nil => left; exact ⟨⟨nofun, List.nodup_nil⟩, by rw [List.append_nil]; rfl⟩
  | cons t new ih =>
    obtain ⟨r, x, ins⟩ := t
    have hk : Dict.keys (m.withRows old).data = old.map Prod.fst := by
      simp [withRows, Dict.keys, Function.comp_def]
    rcases observe_eq (m := m.withRows old) ho r [(o, x)] ins with ⟨x', e', hr, hc, e⟩ | ⟨e', e⟩
    · obtain rfl : x' = x := by simpa using e'.symm
      rw [hk] at hr
      rw [with1_withRows m hr] at e
      have hstep : observeRows o ((r, x', ins) :: new) (m.withRows old) =
          observeRows o new (m.withRows (old ++ [(r, x', ins)])) := by
        rw [observeRows, Py.bind_apply, e]
      rw [hstep]
      rcases ih (old ++ [(r, x', ins)]) with ⟨⟨h1, h2⟩, h3⟩ | ⟨h1, h3⟩
      · left
        refine ⟨⟨?_, ?_⟩, by rw [h3]; simp⟩
        · intro t ht
          rcases List.mem_cons.1 ht with rfl | ht
          · exact ⟨hr, hc⟩
          · have := h1 t ht
            exact ⟨fun hm => this.1 (by simp [List.map_append]; left; simpa using hm), this.2⟩
        · rw [List.map_cons, List.nodup_cons]
          refine ⟨?_, h2⟩
          intro hm
          obtain ⟨t, ht, e⟩ := List.mem_map.1 hm
          exact (h1 t ht).1 (by simp [List.map_append, e])
      · right
        refine ⟨fun hall => h1 ⟨fun t ht => ⟨?_, (hall.1 t (List.mem_cons_of_mem _ ht)).2⟩, ?_⟩, h3⟩
        · rw [List.map_append, List.mem_append]
          rintro (hm | hm)
          · exact (hall.1 t (List.mem_cons_of_mem _ ht)).1 hm
          · have hnd := List.nodup_cons.1 hall.2
            simp only [List.map_cons, List.map_nil, List.mem_singleton] at hm
            exact hnd.1 (List.mem_map.2 ⟨t, ht, hm⟩)
        · exact (List.nodup_cons.1 hall.2).2
    · right
      refine ⟨fun hall => ?_, e', by rw [observeRows, Py.bind_apply, e]⟩
      have h1 := hall.1 (r, x, ins) (by simp)
      have := observe_ok (m := m.withRows old) ho (r := r) (by rw [hk]; exact h1.1) x h1.2
      rw [this] at e
      exact nomatch (congrArg Prod.fst e)

theorem queries_perm {m : LinReg} (hV : m.V.PosDef) {rows rows' : List RegRow} (h : rows.Perm rows')
    (hc : ∀ t ∈ rows, m.processInputs t.2.2 = .ok (m.code t.2.2)) :
    (m.withRows rows).logpdfScore = (m.withRows rows').logpdfScore ∧
    ∀ r targets constraints ins, (m.withRows rows).logpdf r targets constraints ins =
      (m.withRows rows').logpdf r targets constraints ins := by
  have hZ : (rows.map fun t => (m.code t.2.2, t.2.1)).Perm (rows'.map fun t => (m.code t.2.2, t.2.1)) :=
    h.map _
  have hp : ∀ z ∈ rows.map (fun t => (m.code t.2.2, t.2.1)), z.1.length = m.p := by
    intro z hz
    obtain ⟨t, ht, rfl⟩ := List.mem_map.1 hz
    exact processInputs_length (hc t ht)
  have hl := h.length_eq
  constructor
  · have := posterior_perm hV m.mu m.a m.b hZ hp
    simp only [List.map_map, Function.comp_def, List.length_map] at this
    simp only [logpdfScore, calcLogpdfMarginal, withRows, Dict.values, List.map_map, Function.comp_def]
    rw [← hl, this]
    rfl
  · intro r targets constraints ins
    have hh : Dict.has (m.withRows rows).data r = Dict.has (m.withRows rows').data r := by
      rw [Bool.eq_iff_iff, Dict.has_iff, Dict.has_iff]
      simp only [withRows, Dict.keys, List.map_map]
      exact (h.map _).mem_iff
    unfold logpdf
    rw [hh]
    split
    · rfl
    split
    · rfl
    change (if Dict.keys targets ≠ m.outputs then _ else _) = (if Dict.keys targets ≠ m.outputs then _ else _)
    split
    · rfl
    change (do
      let o ← firstOutput m.outputs
      let x ← Dict.getItem targets o
      let yDum ← m.processInputs ins
      calcPredictiveLogp x yDum (rows.length : Int) _ _ m.a m.b m.mu m.V : Except Err Fl) = (do
      let o ← firstOutput m.outputs
      let x ← Dict.getItem targets o
      let yDum ← m.processInputs ins
      calcPredictiveLogp x yDum (rows'.length : Int) _ _ m.a m.b m.mu m.V : Except Err Fl)
    refine bind_congr fun o => bind_congr fun x => ?_
    cases hy : m.processInputs ins with
    | error e => rfl
    | ok y =>
      change calcPredictiveLogp x y (rows.length : Int) _ _ m.a m.b m.mu m.V =
        calcPredictiveLogp x y (rows'.length : Int) _ _ m.a m.b m.mu m.V
      have h1 := posterior_perm hV m.mu m.a m.b hZ hp
      have h2 := posterior_perm hV m.mu m.a m.b (hZ.append (List.Perm.refl [(y, x)])) (by
        intro z hz
        rcases List.mem_append.1 hz with hz | hz
        · exact hp z hz
        · rw [List.mem_singleton.1 hz]; exact processInputs_length hy)
      simp only [List.map_map, Function.comp_def, List.length_map, List.map_append, List.map_cons,
        List.map_nil, List.length_append, List.length_singleton, Nat.cast_add, Nat.cast_one] at h1 h2
      simp only [calcPredictiveLogp, withRows, Dict.values, List.map_map, Function.comp_def]
      rw [← hl, h1, h2]

end Cgpm2.LinReg
