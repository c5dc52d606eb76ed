import Verif.Spec.Forest
import Verif.Lemmas.LinReg

/-! What a random forest holds after a history. -/

namespace Cgpm2.Forest
open Spec

/-- Numbers are coded as in a regression. -/
theorem dummyCodeOne_num {codes : Dict Var Nat} {i : Var} {q : ℚ} {block : List Val}
    (h : dummyCodeOne codes i (.num q) = .ok block) :
    LinReg.dummyCodeOne codes i (.num q) = .ok block ∧
      ∀ L, Dict.get? codes i = some L → ∃ k : Nat, q = k ∧ k < L := by
  unfold dummyCodeOne at h
  unfold LinReg.dummyCodeOne
  cases hg : Dict.get? codes i with
  | none => rw [hg] at h; exact ⟨h, nofun⟩
  | some L =>
    rw [hg] at h
    dsimp only at h ⊢
    split at h
    · next hq =>
      split at h
      · next hw =>
        have hwhole : ∃ k : Nat, q = k ∧ k < L := by
          have h1 := isWhole_iff.1 hw
          rw [← h1] at hq
          obtain ⟨k, hk⟩ := Int.eq_ofNat_of_zero_le (show 0 ≤ truncate q by exact_mod_cast hq.1)
          rw [hk] at h1 hq
          exact ⟨k, by rw [← h1]; simp, by exact_mod_cast hq.2⟩
        refine ⟨?_, fun L' hL' => by cases hL'; exact hwhole⟩
        rw [if_pos hq]
        split at h
        · next hlt => rw [if_pos hlt, if_pos hw]; exact h
        · next hlt => rw [if_neg hlt]; exact h
      · exact nomatch h
    · exact nomatch h

theorem dummyCodeOne_code {codes : Dict Var Nat} {i : Var} {v : Val} {block : List Val}
    (h : dummyCodeOne codes i v = .ok block) : IsForestCode (Dict.get? codes i) v block := by
  cases v with
  | num q =>
    have := LinReg.dummyCodeOne_code (dummyCodeOne_num h).1
    cases hg : Dict.get? codes i <;> rw [hg] at this <;> exact this
  | nan =>
    unfold dummyCodeOne at h
    cases hg : Dict.get? codes i with
    | none => rw [hg] at h; cases h; rfl
    | some L => rw [hg] at h; cases h; rfl

theorem dummyCodeOne_ok {codes : Dict Var Nat} {i : Var} {v : Val}
    (h : ∀ L, Dict.get? codes i = some L → v = .nan ∨ ∃ k : Nat, v = .num k ∧ k < L) :
    ∃ block, dummyCodeOne codes i v = .ok block := by
  unfold dummyCodeOne
  cases hg : Dict.get? codes i with
  | none => exact ⟨_, rfl⟩
  | some L =>
    rcases h L hg with rfl | ⟨k, rfl, hk⟩
    · exact ⟨_, rfl⟩
    · dsimp only
      rw [if_pos ⟨by positivity, by exact_mod_cast hk⟩, if_pos (by simp [isWhole])]
      split
      · exact ⟨_, rfl⟩
      · exact ⟨_, rfl⟩

theorem processInputs_ok {m : Forest} {ins : Dict Var Val} {y : List Val}
    (h : m.processInputs ins = .ok y) : ∃ blocks : List (List Val),
      y = .num 1 :: blocks.flatten ∧ blocks.flatten.length = m.p - 1 ∧
      List.Forall₂ (fun i block => ∃ v, Dict.get? ins i = some v ∧
        dummyCodeOne m.levels i v = .ok block) m.inputs blocks := by
  unfold processInputs at h
  cases hb : (m.inputs.mapM fun i => (do
    let v ← Dict.getItem ins i
    dummyCodeOne m.levels i v : Except Err (List Val))) with
  | error e => rw [hb] at h; exact nomatch h
  | ok blocks =>
    rw [hb] at h
    change (if blocks.flatten.length = m.p - 1 then Except.ok (Val.num 1 :: blocks.flatten)
      else Except.error Err.assertionError) = _ at h
    split at h
    · next hl =>
      refine ⟨blocks, (Except.ok.inj h).symm, hl, ?_⟩
      rw [mapM_ok_iff] at hb
      refine hb.imp fun i block hi => ?_
      rw [Dict.getItem_eq] at hi
      cases hg : Dict.get? ins i with
      | none => rw [hg] at hi; exact nomatch hi
      | some v => rw [hg] at hi; exact ⟨v, rfl, hi⟩
    · exact nomatch h

theorem processInputs_length {m : Forest} {ins : Dict Var Val} {y : List Val}
    (h : m.processInputs ins = .ok y) : y.length = m.p := by
  obtain ⟨blocks, rfl, hl, -⟩ := processInputs_ok h
  rw [List.length_cons, hl]
  change regDim m.distLevels - 1 + 1 = regDim m.distLevels
  unfold regDim; omega

theorem processInputs_present {m : Forest} {ins : Dict Var Val} {y : List Val}
    (h : m.processInputs ins = .ok y) (hp : InputsPresent m.inputs ins) : Val.nan ∉ y := by
  obtain ⟨blocks, rfl, -, hb⟩ := processInputs_ok h
  simp only [List.mem_cons, List.mem_flatten, not_or, not_exists, not_and]
  refine ⟨nofun, fun block hm => ?_⟩
  obtain ⟨i, hi, v, hv, hc⟩ : ∃ i ∈ m.inputs, ∃ v, Dict.get? ins i = some v ∧
      dummyCodeOne m.levels i v = .ok block := by
    obtain ⟨j, hj, rfl⟩ := List.getElem_of_mem hm
    have hj' : j < m.inputs.length := by rw [hb.length_eq]; exact hj
    exact ⟨_, List.getElem_mem hj', hb.get hj' hj⟩
  cases v with
  | nan => exact absurd hv (hp i hi)
  | num q => exact LinReg.code_present (LinReg.dummyCodeOne_code (dummyCodeOne_num hc).1) nofun

/-- A missing input shows, unless the input has only one level. -/
theorem processInputs_absent {m : Forest} (h1 : ∀ i, Dict.get? m.levels i ≠ some 1)
    {ins : Dict Var Val} {y : List Val}
    (h : m.processInputs ins = .ok y) (hp : ¬ InputsPresent m.inputs ins)
    (h0 : ∀ i, Dict.get? m.levels i ≠ some 0) : Val.nan ∈ y := by
  obtain ⟨blocks, rfl, -, hb⟩ := processInputs_ok h
  simp only [InputsPresent, not_forall, not_not] at hp
  obtain ⟨i, hi, hg⟩ := hp
  obtain ⟨j, hj, rfl⟩ := List.getElem_of_mem hi
  have hj' : j < blocks.length := by rw [← hb.length_eq]; exact hj
  obtain ⟨v, hv, hc⟩ := hb.get hj hj'
  simp only [List.get_eq_getElem] at hv hc
  rw [hg] at hv
  cases Option.some.inj hv
  refine List.mem_cons_of_mem _ (List.mem_flatten.2 ⟨blocks[j], List.getElem_mem hj', ?_⟩)
  unfold dummyCodeOne at hc
  cases hL : Dict.get? m.levels m.inputs[j] with
  | none => rw [hL] at hc; rw [← Except.ok.inj hc]; simp
  | some L =>
    rw [hL] at hc
    rw [← Except.ok.inj hc, List.mem_replicate]
    have := h1 m.inputs[j]
    have := h0 m.inputs[j]
    rw [hL] at *
    refine ⟨?_, rfl⟩
    have a1 : L ≠ 1 := by rintro rfl; simp_all
    have a0 : L ≠ 0 := by rintro rfl; simp_all
    omega

/-- The coded inputs. -/
def code (m : Forest) (ins : Dict Var Val) : List Val :=
  match m.processInputs ins with
  | .ok y => y
  | .error _ => []

theorem code_of_ok {m : Forest} {ins : Dict Var Val} {y : List Val}
    (h : m.processInputs ins = .ok y) : m.code ins = y := by rw [code, h]

/-- What a forest with a history holds. -/
structure Inv (m : Forest) (rows : List RegRow) : Prop where
  out : ∃ o, m.outputs = [o]
  outIn : ∀ o ∈ m.outputs, o ∉ m.inputs
  insNe : m.inputs ≠ []
  ins : m.distLevels.length = m.inputs.length
  levels : m.levels = LinReg.levelsOf m.inputs m.distLevels
  count : m.N = rows.length
  data : m.data = rows.map fun t => (t.1, t.2.1)
  raw : m.dataYraw = rows.map fun t => (t.1, m.inputs.map fun i => Dict.get? t.2.2 i)
  dum : m.dataYdum = rows.map fun t => (t.1, m.code t.2.2)
  coded : ∀ t ∈ rows, m.processInputs t.2.2 = .ok (m.code t.2.2)
  nodup : (rows.map Prod.fst).Nodup
  keys : (Dict.keys m.classToIndex).Nodup
  absent : m.regressor = .absent → m.classToIndex = []
  fitted : ∀ c, m.regressor = .fitted c → m.classToIndex = c.classes.zipIdx ∧
    ∃ Y x, FitOk Y x c ∧ (∀ row ∈ Y, row.length = m.p) ∧
      (∀ v ∈ x, v ≠ .nan ∧ ∃ t ∈ rows, t.2.1 = v)

/-- The forest after an accepted row. -/
def with1 (m : Forest) (r : RowId) (x : Val) (ins : Dict Var Val) : Forest :=
  { m with
    N := m.N + 1
    data := Dict.set m.data r x
    dataYraw := Dict.set m.dataYraw r (m.inputs.map fun i => Dict.get? ins i)
    dataYdum := Dict.set m.dataYdum r (m.code ins) }

theorem observe_eq {m : Forest} {o : Var} (ho : m.outputs = [o]) (r : RowId) (ob ins : Dict Var Val) :
    (∃ x, ob = [(o, x)] ∧ r ∉ Dict.keys m.data ∧ m.processInputs ins = .ok (m.code ins) ∧
      observe r ob ins m = (.ok (), m.with1 r x ins)) ∨
    (∃ e, observe r ob ins m = (.error e, m)) := by
  by_cases hr : r ∈ Dict.keys m.data
  · right
    have hh : Dict.has m.data r = true := (Dict.has_iff _ _).2 hr
    exact ⟨.assertionError, by unfold observe; simp [Py.bind_apply, Py.assert_apply, hh]⟩
  · have hh : Dict.has m.data r = false := (Dict.has_eq_false_iff _ _).2 hr
    by_cases hk : Dict.keys ob = m.outputs
    · obtain ⟨x, rfl⟩ : ∃ x, ob = [(o, x)] := by
        rw [ho] at hk
        rcases ob with _ | ⟨⟨k, x⟩, _ | ⟨kv, ob⟩⟩
        · simp [Dict.keys] at hk
        · simp [Dict.keys] at hk; subst hk; exact ⟨x, rfl⟩
        · simp [Dict.keys] at hk
      have hf : firstOutput m.outputs = .ok o := by rw [ho]; rfl
      cases hc : m.processInputs ins with
      | error e =>
        right
        refine ⟨e, ?_⟩
        unfold observe
        simp only [Py.bind_apply, Py.get_apply, Py.assert_apply, hh, if_true, hk, Py.lift_apply, hf,
          getItem_single, hc]
      | ok y =>
        left
        refine ⟨x, rfl, hr, by rw [code_of_ok hc], ?_⟩
        unfold observe with1
        simp only [Py.bind_apply, Py.get_apply, Py.assert_apply, hh, if_true, hk, Py.lift_apply, hf,
          getItem_single, hc, Py.modify_apply, code_of_ok hc]
    · right
      exact ⟨.assertionError, by unfold observe; simp [Py.bind_apply, Py.assert_apply, hh, hk]⟩

theorem Inv.with1 {m : Forest} {rows : List RegRow} (h : m.Inv rows) {r : RowId}
    (hr : r ∉ Dict.keys m.data) (x : Val) {ins : Dict Var Val}
    (hc : m.processInputs ins = .ok (m.code ins)) : (m.with1 r x ins).Inv (rows ++ [(r, x, ins)]) := by
  have hr' : r ∉ rows.map Prod.fst := by
    rw [h.data, Dict.keys, List.map_map] at hr; exact hr
  have hc' : ∀ i, (m.with1 r x ins).code i = m.code i := fun i => rfl
  have hp' : ∀ i, (m.with1 r x ins).processInputs i = m.processInputs i := fun i => rfl
  have hdum : r ∉ Dict.keys m.dataYdum := by
    rw [h.dum, Dict.keys, List.map_map]; exact hr'
  exact
    { out := h.out
      outIn := h.outIn
      insNe := h.insNe
      ins := h.ins
      levels := h.levels
      count := by
        change m.N + 1 = _
        rw [h.count]; simp
      data := by
        change Dict.set m.data r x = _
        rw [Dict.set_of_not_mem _ _ _ hr, h.data]; simp
      raw := by
        change Dict.set m.dataYraw r _ = _
        have : r ∉ Dict.keys m.dataYraw := by rw [h.raw, Dict.keys, List.map_map]; exact hr'
        rw [Dict.set_of_not_mem _ _ _ this, h.raw]
        simp only [List.map_append, List.map_cons, List.map_nil]
        rfl
      dum := by
        change Dict.set m.dataYdum r (m.code ins) = _
        rw [Dict.set_of_not_mem _ _ _ hdum, h.dum]; simp [hc']
      coded := by
        intro t ht
        rw [hp', hc']
        rcases List.mem_append.1 ht with ht | ht
        · exact h.coded t ht
        · rw [List.mem_singleton.1 ht]; exact hc
      nodup := by
        rw [List.map_append]
        refine List.nodup_append.2 ⟨h.nodup, by simp, ?_⟩
        intro a ha b hb e
        simp only [List.map_cons, List.map_nil, List.mem_singleton] at hb
        exact hr' (by rw [← hb, ← e]; exact ha)
      keys := h.keys
      absent := h.absent
      fitted := by
        intro c hcl
        obtain ⟨h1, Y, x', h2, h3, h4⟩ := h.fitted c hcl
        refine ⟨h1, Y, x', h2, h3, fun v hv => ⟨(h4 v hv).1, ?_⟩⟩
        obtain ⟨t, ht, e⟩ := (h4 v hv).2
        exact ⟨t, List.mem_append_left _ ht, e⟩ }

theorem init_inv {outputs inputs : List Var} {k : Nat} {lv : List Nat} {params : Dict String ℝ}
    {m : Forest} (h : Forest.init outputs inputs k lv params = .ok m) : m.Inv [] := by
  unfold Forest.init at h
  split at h
  · exact nomatch h
  next ho =>
  split at h
  · exact nomatch h
  next hin =>
  split at h
  · exact nomatch h
  next o os =>
  split at h
  · exact nomatch h
  next hno =>
  split at h
  · exact nomatch h
  next hl =>
  cases h
  have hos : os = [] := by simpa using ho
  subst hos
  exact
    { out := ⟨o, rfl⟩
      outIn := by
        intro o' ho'
        rw [List.mem_singleton.1 ho']; exact hno
      insNe := fun e => hin (List.length_eq_zero_iff.2 e)
      ins := not_not.1 hl, levels := rfl, count := rfl, data := rfl, raw := rfl, dum := rfl
      coded := nofun, nodup := List.nodup_nil, keys := List.nodup_nil, absent := fun _ => rfl
      fitted := nofun }

/-- The rows used for training. -/
def trainingRows (m : Forest) (rows : List RegRow) : List RegRow :=
  rows.filter fun t => !((m.code t.2.2).any Val.isNan || t.2.1.isNan)

theorem Inv.training {m : Forest} {rows : List RegRow} (h : m.Inv rows) (hne : rows ≠ []) :
    getTrainingData (Dict.values m.dataYdum) (Dict.values m.data) =
      .ok ((m.trainingRows rows).map fun t => m.code t.2.2, (m.trainingRows rows).map fun t => t.2.1) := by
  have e1 : Dict.values m.dataYdum = rows.map fun t => m.code t.2.2 := by
    rw [h.dum]; simp [Dict.values]
  have e2 : Dict.values m.data = rows.map fun t => t.2.1 := by
    rw [h.data]; simp [Dict.values]
  have e3 : (rows.map fun t => m.code t.2.2).zip (rows.map fun t => t.2.1) =
      rows.map fun t => (m.code t.2.2, t.2.1) := by
    rw [List.zip_map']
  rw [e1, e2, getTrainingData, if_neg (by simp), if_neg (by simpa using hne), e3]
  dsimp only
  rw [List.filter_map, List.map_map, List.map_map]
  rfl

theorem training_nil {m : Forest} (h : m.Inv []) :
    getTrainingData (Dict.values m.dataYdum) (Dict.values m.data) = .error .valueError := by
  rw [h.dum, h.data]; rfl

theorem transition_cases {m : Forest} {rows : List RegRow} (h : m.Inv rows)
    (fit : List (List Val) → List Val → Except Err Classifier) :
    (rows = [] ∧ transition fit m = (.error .valueError, m)) ∨
    (∃ e, fit ((m.trainingRows rows).map fun t => m.code t.2.2)
        ((m.trainingRows rows).map fun t => t.2.1) = .error e ∧
      transition fit m = (.error e, { m with regressor := .unfitted })) ∨
    (∃ c, fit ((m.trainingRows rows).map fun t => m.code t.2.2)
        ((m.trainingRows rows).map fun t => t.2.1) = .ok c ∧
      transition fit m = (.ok (), { m with regressor := .fitted c
                                           classToIndex := Dict.update [] c.classes.zipIdx })) := by
  by_cases hne : rows = []
  · subst hne
    left
    refine ⟨rfl, ?_⟩
    unfold transition
    simp only [Py.bind_apply, Py.get_apply, Py.lift_apply, training_nil h]
  · right
    have ht := h.training hne
    cases hf : fit ((m.trainingRows rows).map fun t => m.code t.2.2)
        ((m.trainingRows rows).map fun t => t.2.1) with
    | error e =>
      left
      refine ⟨e, rfl, ?_⟩
      unfold transition
      simp only [Py.bind_apply, Py.get_apply, Py.lift_apply, ht, hf, Py.modify_apply]
    | ok c =>
      right
      refine ⟨c, rfl, ?_⟩
      unfold transition
      simp only [Py.bind_apply, Py.get_apply, Py.lift_apply, ht, hf, Py.modify_apply]

theorem keys_zipIdx (l : List Val) : Dict.keys (l.zipIdx : Dict Val Nat) = l := by
  simp [Dict.keys]

theorem _root_.Cgpm2.Spec.ForestHistory.inv {m : Forest} {rows : List RegRow} (h : ForestHistory m rows) :
    m.Inv rows := by
  induction h with
  | init h => exact init_inv h
  | @observe m rows _ r o x ob ins ho hx hr ih =>
    rcases observe_eq ho r ob ins with ⟨x', rfl, hr', hc, e⟩ | ⟨e', e⟩
    · have : x' = x := by simpa [Dict.get?] using hx
      subst this
      rw [e]
      exact ih.with1 hr' _ hc
    · rw [e] at hr; exact nomatch hr
  | @rejected m rows _ r ob ins e hr ih =>
    obtain ⟨o, ho⟩ := ih.out
    rcases observe_eq ho r ob ins with ⟨x', rfl, hr', hc, e⟩ | ⟨e', e⟩
    · rw [e] at hr; exact nomatch hr
    · rw [e]; exact ih
  | @transition m rows _ fit hf ih =>
    rcases transition_cases ih fit with ⟨-, e⟩ | ⟨_, -, e⟩ | ⟨c, hc, e⟩
    · rw [e]; exact ih
    · rw [e]
      exact { ih with absent := nofun, fitted := nofun }
    · rw [e]
      have hfit := hf _ _ _ hc
      have hz : Dict.update [] (c.classes.zipIdx : Dict Val Nat) = c.classes.zipIdx :=
        Dict.update_nil_left _ (by rw [keys_zipIdx]; exact hfit.nodup)
      rw [hz]
      exact
        { ih with
          keys := by
            change (Dict.keys (c.classes.zipIdx : Dict Val Nat)).Nodup
            rw [keys_zipIdx]; exact hfit.nodup
          absent := nofun
          fitted := by
            intro c' hc'
            cases hc'
            refine ⟨rfl, _, _, hfit, ?_, ?_⟩
            · intro row hr
              obtain ⟨t, ht, rfl⟩ := List.mem_map.1 hr
              exact processInputs_length (ih.coded t (List.mem_filter.1 ht).1)
            · intro v hv
              obtain ⟨t, ht, rfl⟩ := List.mem_map.1 hv
              obtain ⟨ht, hn⟩ := List.mem_filter.1 ht
              refine ⟨?_, t, ht, rfl⟩
              intro e
              rw [e] at hn
              simp [Val.isNan] at hn }

end Cgpm2.Forest
