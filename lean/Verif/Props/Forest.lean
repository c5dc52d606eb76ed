import Verif.Lemmas.Forest
import Verif.Lemmas.Flip
import Verif.Spec.Prob
import Verif.Props.LinReg

/-!
# Properties C64, C65, C81 and C83-C85: the random forest
-/

namespace Cgpm2

namespace Concrete
open Spec

/-- A forest for variable 7 with two classes, a numeric input 1 and an input 2 with three levels. -/
def forest0 : Forest where
  outputs := [7]
  inputs := [1, 2]
  params := []
  k := 2
  distLevels := [0, 3]
  levels := [(2, 3)]
  N := 0
  data := []
  dataYraw := []
  dataYdum := []
  classToIndex := []
  regressor := .absent

/-- It after two observations, one of them with a missing input. -/
def forest2 : Forest where
  outputs := [7]
  inputs := [1, 2]
  params := []
  k := 2
  distLevels := [0, 3]
  levels := [(2, 3)]
  N := 2
  data := [(some 0, .num 1), (some 1, .num 0)]
  dataYraw := [(some 0, [some (.num (1/2)), some (.num 1)]), (some 1, [some (.num 4), some .nan])]
  dataYdum := [(some 0, [.num 1, .num (1/2), .num 0, .num 1]), (some 1, [.num 1, .num 4, .nan, .nan])]
  classToIndex := []
  regressor := .absent

/-- The inputs of the second observation. -/
def forestIns : Dict Var Val := [(1, .num 4), (2, .nan)]

/-- The observations. -/
def forestRows : List RegRow := [(some 0, .num 1, regIns), (some 1, .num 0, forestIns)]

theorem forest0_history : ForestHistory forest0 [] :=
  .init (show Forest.init [7] [1, 2] 2 [0, 3] [] = .ok forest0 from rfl)

theorem forest2_history : ForestHistory forest2 forestRows := by
  have h1 := forest0_history.observe (r := some 0) (o := 7) (x := .num 1) (ob := [(7, .num 1)])
    (ins := regIns) rfl rfl rfl
  exact h1.observe (r := some 1) (o := 7) (x := .num 0) (ob := [(7, .num 0)])
    (ins := forestIns) rfl rfl rfl

/-- A classifier that gives all classes the same probability. -/
noncomputable def flatClassifier (x : List Val) : Classifier where
  classes := x.dedup
  predict := fun _ => .ok (List.replicate x.dedup.length (.fin (-Real.log x.dedup.length)))

/-- Its `fit`, which needs at least one row. -/
noncomputable def flatFit (_Y : List (List Val)) (x : List Val) : Except Err Classifier :=
  match x with
  | [] => .error .valueError
  | v :: x => .ok (flatClassifier (v :: x))

theorem flatFit_ok : ∀ Y x c, flatFit Y x = .ok c → FitOk Y x c := by
  intro Y x c h
  cases x with
  | nil => exact nomatch h
  | cons v x =>
    cases h
    have hpos : (0 : ℝ) < (v :: x).dedup.length := by
      have : (v :: x).dedup ≠ [] := by
        intro e
        have := List.mem_dedup.2 (List.mem_cons_self (a := v) (l := x))
        rw [e] at this
        exact nomatch this
      exact_mod_cast List.length_pos_iff.2 this
    refine ⟨List.nodup_dedup _, fun w => List.mem_dedup, fun y _ _ => ⟨_, rfl, by simp [flatClassifier], ?_, ?_⟩⟩
    · intro l hl
      rw [(List.mem_replicate.1 hl).2]; trivial
    · rw [List.map_replicate, List.sum_replicate, nsmul_eq_mul]
      change _ * Real.exp _ = 1
      rw [Real.exp_neg, Real.exp_log hpos]
      exact mul_inv_cancel₀ hpos.ne'

/-- The forest after a transition. -/
noncomputable def forest3 : Forest where
  outputs := [7]
  inputs := [1, 2]
  params := []
  k := 2
  distLevels := [0, 3]
  levels := [(2, 3)]
  N := 2
  data := [(some 0, .num 1), (some 1, .num 0)]
  dataYraw := [(some 0, [some (.num (1/2)), some (.num 1)]), (some 1, [some (.num 4), some .nan])]
  dataYdum := [(some 0, [.num 1, .num (1/2), .num 0, .num 1]), (some 1, [.num 1, .num 4, .nan, .nan])]
  classToIndex := [(.num 1, 0)]
  regressor := .fitted (flatClassifier [.num 1])

theorem forest3_eq : Forest.transition flatFit forest2 = (.ok (), forest3) := rfl

theorem forest3_history : ForestHistory forest3 forestRows := by
  have := forest2_history.transition flatFit flatFit_ok
  rwa [forest3_eq] at this

end Concrete

namespace Props
open Spec Forest

/-! ### C64: coding of inputs -/

theorem forest_levels {m : Forest} {rows : List RegRow} (h : ForestHistory m rows)
    (nd : m.inputs.Nodup) (i : Var) : Dict.get? m.levels i = declared m.inputs m.distLevels i := by
  rw [h.inv.levels, LinReg.levelsOf, Dict.update_nil_left _ (nodup_filter_zip nd _), get?_filter_zip nd]

/-- **C64, the coding of a forest.** Accepted inputs become a list of `p` entries that starts with 1,
followed by the codes of the inputs in order. -/
theorem C64_forest_code {m : Forest} {rows : List RegRow} (h : ForestHistory m rows)
    (nd : m.inputs.Nodup) {ins : Dict Var Val} {y : List Val} (hy : m.processInputs ins = .ok y) :
    y.length = regDim m.distLevels ∧ ∃ blocks : List (List Val), y = .num 1 :: blocks.flatten ∧
      List.Forall₂ (fun i block => ∃ v, Dict.get? ins i = some v ∧
        IsForestCode (declared m.inputs m.distLevels i) v block) m.inputs blocks := by
  refine ⟨processInputs_length hy, ?_⟩
  obtain ⟨blocks, e, -, hb⟩ := processInputs_ok hy
  refine ⟨blocks, e, hb.imp ?_⟩
  rintro i block ⟨v, hv, hc⟩
  exact ⟨v, hv, forest_levels h nd i ▸ dummyCodeOne_code hc⟩

/-- The number of entries of a code. -/
def codeWidth : Option Nat → Nat
  | none => 1
  | some L => L - 1

theorem forest_code_length {o : Option Nat} {v : Val} {b : List Val} (h : IsForestCode o v b) :
    b.length = codeWidth o := by
  cases o with
  | none =>
    have h : b = [v] := by cases v <;> exact h
    rw [h]; rfl
  | some L =>
    cases v with
    | nan =>
      have h : b = List.replicate (L - 1) .nan := h
      rw [h, List.length_replicate]; rfl
    | num q => exact h.1

/-- **C64, different inputs of a forest.** Two accepted inputs with the same code agree in every
input, if no input is declared with one level only. -/
theorem C64_forest_injective {m : Forest} {rows : List RegRow} (h : ForestHistory m rows)
    (nd : m.inputs.Nodup) (h1 : 1 ∉ m.distLevels)
    {ins ins' : Dict Var Val} {y : List Val} (hy : m.processInputs ins = .ok y)
    (hy' : m.processInputs ins' = .ok y) : ∀ i ∈ m.inputs, Dict.get? ins i = Dict.get? ins' i := by
  obtain ⟨bs, e, -, hb⟩ := processInputs_ok hy
  obtain ⟨bs', e', -, hb'⟩ := processInputs_ok hy'
  rw [e] at e'
  have hbs : bs = bs' := by
    refine flatten_inj hb hb' ?_ (List.cons.inj e').2
    rintro i b b' ⟨v, -, hc⟩ ⟨v', -, hc'⟩
    rw [forest_code_length (dummyCodeOne_code hc), forest_code_length (dummyCodeOne_code hc')]
  subst hbs
  intro i hi
  obtain ⟨j, hj, rfl⟩ := List.getElem_of_mem hi
  have hj' : j < bs.length := by rw [← hb.length_eq]; exact hj
  obtain ⟨v, hv, hc⟩ := hb.get hj hj'
  obtain ⟨v', hv', hc'⟩ := hb'.get hj hj'
  simp only [List.get_eq_getElem] at hv hc hv' hc'
  rw [hv, hv']
  have hno1 : ∀ L, Dict.get? m.levels m.inputs[j] = some L → 2 ≤ L := by
    intro L hL
    rw [forest_levels h nd] at hL
    unfold declared at hL
    cases hf : (m.inputs.zip m.distLevels).find? fun il => il.1 = m.inputs[j] with
    | none => rw [hf] at hL; exact nomatch hL
    | some il =>
      rw [hf] at hL
      dsimp only at hL
      split at hL
      · exact nomatch hL
      · next h0 =>
        cases hL
        have hm : il.2 ∈ m.distLevels :=
          (List.of_mem_zip (a := il.1) (b := il.2) (List.mem_of_find?_eq_some hf)).2
        have : il.2 ≠ 1 := fun e => h1 (e ▸ hm)
        omega
  have hnan : ∀ q, dummyCodeOne m.levels m.inputs[j] (.num q) = .ok bs[j] →
      dummyCodeOne m.levels m.inputs[j] .nan = .ok bs[j] → False := by
    intro q h1 h2
    have a1 := LinReg.code_present (LinReg.dummyCodeOne_code (dummyCodeOne_num h1).1) nofun
    apply a1
    unfold dummyCodeOne at h2
    cases hL : Dict.get? m.levels m.inputs[j] with
    | none => rw [hL] at h2; rw [← Except.ok.inj h2]; simp
    | some L =>
      rw [hL] at h2
      rw [← Except.ok.inj h2, List.mem_replicate]
      have := hno1 L hL
      exact ⟨by omega, rfl⟩
  cases v with
  | nan =>
    cases v' with
    | nan => rfl
    | num q => exact (hnan q hc' hc).elim
  | num q =>
    cases v' with
    | nan => exact (hnan q hc hc').elim
    | num q' =>
      obtain ⟨c1, w1⟩ := dummyCodeOne_num hc
      obtain ⟨c2, w2⟩ := dummyCodeOne_num hc'
      rw [code_inj (LinReg.dummyCodeOne_code c1) (LinReg.dummyCodeOne_code c2) ?_ ?_]
      · intro L hL
        obtain ⟨k, rfl, hk⟩ := w1 L hL
        exact ⟨k, hk, rfl⟩
      · intro L hL
        obtain ⟨k, rfl, hk⟩ := w2 L hL
        exact ⟨k, hk, rfl⟩

/-- **C64, rejected inputs of a forest.** Inputs are refused if one is absent, or if a categorical
one is a number other than those of its levels. -/
theorem C64_forest_rejects {m : Forest} {rows : List RegRow} (h : ForestHistory m rows)
    (nd : m.inputs.Nodup) {ins : Dict Var Val} {i : Var} (hi : i ∈ m.inputs)
    (hbad : Dict.get? ins i = none ∨ ∃ L q, declared m.inputs m.distLevels i = some L ∧
      Dict.get? ins i = some (.num q) ∧ ∀ k : Nat, k < L → q ≠ k) :
    ∃ e, m.processInputs ins = .error e := by
  cases hy : m.processInputs ins with
  | error e => exact ⟨e, rfl⟩
  | ok y =>
    exfalso
    obtain ⟨bs, e, -, hb⟩ := processInputs_ok hy
    obtain ⟨j, hj, rfl⟩ := List.getElem_of_mem hi
    have hj' : j < bs.length := by rw [← hb.length_eq]; exact hj
    obtain ⟨v, hv, hc⟩ := hb.get hj hj'
    simp only [List.get_eq_getElem] at hv hc
    rcases hbad with hn | ⟨L, q, hL, hq, hbad⟩
    · rw [hn] at hv; exact nomatch hv
    · rw [← forest_levels h nd] at hL
      rw [hq] at hv
      cases hv
      obtain ⟨k, hk, hlt⟩ := (dummyCodeOne_num hc).2 L hL
      exact hbad k hlt hk

theorem forest_blocks_length {inputs : List Var} (nd : inputs.Nodup) {lv : List Nat}
    (hl : lv.length = inputs.length) {bs : List (List Val)}
    (hb : List.Forall₂ (fun i b => ∃ v, IsForestCode (declared inputs lv i) v b) inputs bs) :
    bs.flatten.length = (lv.map fun l => if l = 0 then 1 else l - 1).sum := by
  induction inputs generalizing lv bs with
  | nil =>
    cases hb
    obtain rfl : lv = [] := List.length_eq_zero_iff.1 hl
    rfl
  | cons j inputs ih =>
    obtain ⟨hj, nd'⟩ := List.nodup_cons.1 nd
    cases lv with
    | nil => simp at hl
    | cons l lv =>
      cases hb with
      | @cons _ b _ bs hb1 hb2 =>
        rw [List.flatten_cons, List.length_append, List.map_cons, List.sum_cons]
        congr 1
        · obtain ⟨v, hv⟩ := hb1
          have hd : declared (j :: inputs) (l :: lv) j = if l = 0 then none else some l := by
            simp [declared]
          rw [hd] at hv
          rw [forest_code_length hv]
          by_cases h0 : l = 0
          · rw [if_pos h0, if_pos h0]; rfl
          · rw [if_neg h0, if_neg h0]; rfl
        · refine ih nd' (by simpa using hl) ?_
          clear ih hl hb1
          have : ∀ k ∈ inputs, declared (j :: inputs) (l :: lv) k = declared inputs lv k :=
            fun k hk => declared_cons fun e => hj (e ▸ hk)
          generalize hP : declared (j :: inputs) (l :: lv) = P at *
          clear hP
          generalize declared inputs lv = Q at *
          clear hj nd nd'
          induction hb2 with
          | nil => exact .nil
          | @cons a b as bs h1 _ ih =>
            refine .cons ?_ (ih fun k hk => this k (List.mem_cons_of_mem _ hk))
            rw [← this a List.mem_cons_self]; exact h1

/-- **C64, accepted inputs of a forest.** Inputs are accepted if all are given and the categorical
ones are missing or numbers of levels. -/
theorem C64_forest_accepts {m : Forest} {rows : List RegRow} (h : ForestHistory m rows)
    (nd : m.inputs.Nodup) {ins : Dict Var Val} (hv : ∀ i ∈ m.inputs, ∃ v, Dict.get? ins i = some v ∧
      ∀ L, declared m.inputs m.distLevels i = some L → v = .nan ∨ ∃ k : Nat, v = .num k ∧ k < L) :
    ∃ y, m.processInputs ins = .ok y := by
  have hI := h.inv
  have hex : ∀ i ∈ m.inputs, ∃ b, (do
      let v ← Dict.getItem ins i
      dummyCodeOne m.levels i v : Except Err (List Val)) = .ok b := by
    intro i hi
    obtain ⟨v, hg, hL⟩ := hv i hi
    rw [Dict.getItem_ok hg]
    refine dummyCodeOne_ok fun L hL' => hL L ?_
    rw [← forest_levels h nd]; exact hL'
  obtain ⟨bs, hbs⟩ : ∃ bs, m.inputs.mapM (fun i => (do
      let v ← Dict.getItem ins i
      dummyCodeOne m.levels i v : Except Err (List Val))) = .ok bs := by
    generalize m.inputs = l at hex
    clear hv nd
    induction l with
    | nil => exact ⟨[], rfl⟩
    | cons i l ih =>
      obtain ⟨b, hb⟩ := hex i (by simp)
      obtain ⟨bs, hbs⟩ := ih fun k hk => hex k (List.mem_cons_of_mem _ hk)
      exact ⟨b :: bs, by rw [List.mapM_cons, hb, hbs]; rfl⟩
  have hF := (mapM_ok_iff _ _ _).1 hbs
  refine ⟨.num 1 :: bs.flatten, ?_⟩
  unfold processInputs
  rw [hbs]
  change (if bs.flatten.length = m.p - 1 then Except.ok (Val.num 1 :: bs.flatten)
      else Except.error Err.assertionError) = _
  rw [if_pos]
  change _ = regDim m.distLevels - 1
  rw [forest_blocks_length nd hI.ins (lv := m.distLevels) (hF.imp ?_), regDim, Nat.add_sub_cancel_left]
  intro i b hi
  cases hg : Dict.getItem ins i with
  | error e => rw [hg] at hi; exact nomatch hi
  | ok v => rw [hg] at hi; exact ⟨v, forest_levels h nd i ▸ dummyCodeOne_code hi⟩

example := C64_forest_code Concrete.forest2_history (by decide) (ins := Concrete.forestIns)
  (y := [.num 1, .num 4, .nan, .nan]) rfl

example := C64_forest_injective Concrete.forest2_history (by decide) (by decide)
  (ins := Concrete.forestIns) (ins' := [(2, .nan), (1, .num 4)]) (y := [.num 1, .num 4, .nan, .nan]) rfl rfl

example := C64_forest_rejects Concrete.forest2_history (by decide) (ins := [(1, .num 0), (2, .num (1/2))])
  (i := 2) (List.mem_cons_of_mem _ (List.mem_singleton.2 rfl))
  (Or.inr ⟨3, 1/2, rfl, rfl, by
    intro k hk
    have : k = 0 ∨ k = 1 ∨ k = 2 := by omega
    rcases this with rfl | rfl | rfl <;> norm_num⟩)

example := C64_forest_accepts Concrete.forest2_history (by decide) (ins := Concrete.forestIns) (by
  intro i hi
  have : i = 1 ∨ i = 2 := by simpa [Concrete.forest2] using hi
  rcases this with rfl | rfl
  · exact ⟨_, rfl, fun L hL => nomatch hL⟩
  · exact ⟨_, rfl, fun L hL => Or.inl rfl⟩)

/-! ### C65: unobserve -/

/-- **C65 is violated** by a forest as by a regression: `unobserve` of a held row raises TypeError,
takes the row away and does not adjust the number of rows. -/
theorem C65_forest_violated {m : Forest} {rows : List RegRow} (h : ForestHistory m rows)
    {r : RowId} {x : Val} (hr : Dict.get? m.data r = some x) :
    (Forest.unobserve r m).1 = .error .typeError ∧
    (∀ r', Dict.get? (Forest.unobserve r m).2.data r' = if r' = r then none else Dict.get? m.data r') ∧
    (Forest.unobserve r m).2.N = m.N := by
  have hI := h.inv
  obtain ⟨o, ho⟩ := hI.out
  have hk : r ∈ rows.map Prod.fst := by
    have := Dict.mem_keys_of_get? hr
    rwa [hI.data, Dict.keys, List.map_map] at this
  obtain ⟨yr, hyr⟩ := Dict.exists_get?_of_mem_keys (d := m.dataYraw) (k := r) (by
    rw [hI.raw, Dict.keys, List.map_map]; exact hk)
  obtain ⟨yd, hyd⟩ := Dict.exists_get?_of_mem_keys (d := m.dataYdum) (k := r) (by
    rw [hI.dum, Dict.keys, List.map_map]; exact hk)
  have hf : firstOutput m.outputs = .ok o := by rw [ho]; rfl
  have hnd : (Dict.keys m.data).Nodup := by
    rw [hI.data, Dict.keys, List.map_map]; exact hI.nodup
  have e : Forest.unobserve r m = (.error .typeError, { m with
      data := Dict.del m.data r
      dataYraw := Dict.del m.dataYraw r
      dataYdum := Dict.del m.dataYdum r }) := by
    unfold Forest.unobserve
    simp only [Py.bind_apply, Py.get_apply, Py.lift_apply, Dict.getItem_ok hr, Py.modify_apply,
      Dict.getItem_ok hyr, Dict.getItem_ok hyd, hf, Py.throw_apply]
  rw [e]
  refine ⟨rfl, fun r' => ?_, rfl⟩
  change Dict.get? (Dict.del m.data r) r' = _
  rw [Dict.get?_del _ hnd]
  simp only [eq_comm]

example := C65_forest_violated Concrete.forest2_history (r := some 1) (x := .num 0) rfl

/-! ### C81: metadata -/

/-- **C81 for forests.** A forest is restored from its metadata as it was, apart from the `params`
given to its constructor, which it never looks at. -/
theorem C81_forest {m : Forest} {rows : List RegRow} (h : ForestHistory m rows) :
    fromMetadata m.toMetadata = .ok { m with params := [] } := by
  have hI := h.inv
  obtain ⟨o, ho⟩ := hI.out
  have hnd : ∀ {W : Type} (f : RegRow → W), (Dict.keys (rows.map fun t => (t.1, f t))).Nodup := by
    intro W f; rw [Dict.keys, List.map_map]; exact hI.nodup
  have h1 : Dict.update [] m.data = m.data := by
    rw [hI.data]; exact Dict.update_nil_left _ (hnd _)
  have h2 : Dict.update [] m.dataYraw = m.dataYraw := by
    rw [hI.raw]; exact Dict.update_nil_left _ (hnd _)
  have h3 : Dict.update [] m.dataYdum = m.dataYdum := by
    rw [hI.dum]; exact Dict.update_nil_left _ (hnd _)
  have h4 : Dict.update [] m.classToIndex = m.classToIndex := Dict.update_nil_left _ hI.keys
  have hn : o ∉ m.inputs := hI.outIn o (by rw [ho]; simp)
  unfold fromMetadata
  have hinit : Forest.init m.toMetadata.outputs m.toMetadata.inputs m.toMetadata.k
      m.toMetadata.distLevels [] =
      .ok { outputs := m.outputs, inputs := m.inputs, params := [], k := m.k,
            distLevels := m.distLevels, levels := LinReg.levelsOf m.inputs m.distLevels, N := 0,
            data := [], dataYraw := [], dataYdum := [], classToIndex := [], regressor := .absent } := by
    change Forest.init m.outputs m.inputs m.k m.distLevels [] = _
    unfold Forest.init
    rw [ho, if_neg (by simp), if_neg (by simpa using hI.insNe)]
    dsimp only
    rw [if_neg hn, if_neg (by simpa using hI.ins)]
  rw [hinit]
  change Except.ok ({ outputs := m.outputs, inputs := m.inputs, params := [], k := m.k, distLevels := m.distLevels, levels := LinReg.levelsOf m.inputs m.distLevels, N := m.N, data := Dict.update [] m.data, dataYraw := Dict.update [] m.dataYraw, dataYdum := Dict.update [] m.dataYdum, classToIndex := Dict.update [] m.classToIndex, regressor := m.regressor } : Forest) = _
  rw [h1, h2, h3, h4, ← hI.levels]

example := C81_forest Concrete.forest3_history

/-! ### C83: class probabilities -/

/-- What `logpdf` answers once its arguments are checked. -/
noncomputable def forestDensity (m : Forest) (v : Val) (ins : Dict Var Val) : Except Err Fl :=
  match Dict.get? m.classToIndex v with
  | none => .ok .ninf
  | some ix =>
    match m.regressor with
    | .unfitted => .error .attributeError
    | .absent => do
      let l ← pyLog (m.k : ℝ)
      .ok (.fin (-l))
    | .fitted reg => do
      let yDum ← m.processInputs ins
      let logps ← reg.predict yDum
      match logps[ix]? with
      | some l => .ok l
      | none => .error .indexError

theorem forest_logpdf {m : Forest} {o : Var} (ho : m.outputs = [o]) {r : RowId}
    (hr : r ∉ Dict.keys m.data) (v : Val) (ins : Dict Var Val) :
    m.logpdf r [(o, v)] [] ins = forestDensity m v ins := by
  have hh : Dict.has m.data r = false := (Dict.has_eq_false_iff _ _).2 hr
  have hk : Dict.keys [(o, v)] = m.outputs := by rw [ho]; rfl
  have hf : firstOutput m.outputs = .ok o := by rw [ho]; rfl
  have hb : ∀ f : Val → Except Err Fl, (Dict.getItem [(o, v)] o >>= f) = f v := by
    intro f; rw [getItem_single]; rfl
  unfold logpdf
  rw [hh, if_neg (by simp), if_neg (by simp), if_neg (by simpa using hk), hf]
  exact hb _

/-- **C83 is violated.** Until its first transition, a forest gives probability zero to every value,
although `simulate` draws the numbers from 0 to k - 1. -/
theorem C83_violated {m : Forest} {rows : List RegRow} (h : ForestHistory m rows)
    (ha : m.regressor = .absent) {o : Var} (ho : m.outputs = [o]) {r : RowId}
    (hr : r ∉ Dict.keys m.data) (v : Val) (ins : Dict Var Val) :
    m.logpdf r [(o, v)] [] ins = .ok .ninf := by
  rw [forest_logpdf ho hr, forestDensity, h.inv.absent ha]; rfl

example := C83_violated Concrete.forest2_history rfl (o := 7) rfl (r := some 9)
  (by simp [Concrete.forest2, Dict.keys]) (.num 1) Concrete.regIns

theorem get?_zipIdx {l : List Val} (nd : l.Nodup) (n : Nat) (v : Val) :
    Dict.get? (l.zipIdx n : Dict Val Nat) v = if v ∈ l then some (n + l.idxOf v) else none := by
  induction l generalizing n with
  | nil => rfl
  | cons w l ih =>
    obtain ⟨hw, nd⟩ := List.nodup_cons.1 nd
    rw [List.zipIdx_cons, Dict.get?_cons, ih nd]
    by_cases e : w = v
    · subst e; simp
    · rw [if_neg e]
      have e' : v ≠ w := fun h => e h.symm
      by_cases hv : v ∈ l
      · rw [if_pos hv, if_pos (List.mem_cons_of_mem _ hv), List.idxOf_cons_ne _ e]
        congr 1; omega
      · rw [if_neg hv, if_neg (by simp [e', hv])]

/-- What the fitted classifier says of the classes. -/
theorem forest_fitted {m : Forest} {rows : List RegRow} (h : ForestHistory m rows)
    {c : Classifier} (hc : m.regressor = .fitted c) {o : Var} (ho : m.outputs = [o]) {r : RowId}
    (hr : r ∉ Dict.keys m.data) {ins : Dict Var Val} {y : List Val} (hy : m.processInputs ins = .ok y)
    (hi : InputsPresent m.inputs ins) : c.classes.Nodup ∧ Dict.keys m.classToIndex = c.classes ∧
      ∃ logps, c.predict y = .ok logps ∧ logps.length = c.classes.length ∧
        (∀ l ∈ logps, l.IsLogP) ∧ (logps.map Fl.exp).sum = 1 ∧
        (∀ v ∉ c.classes, m.logpdf r [(o, v)] [] ins = .ok .ninf) ∧
        ∀ (j : Nat) v l, c.classes[j]? = some v → logps[j]? = some l →
          m.logpdf r [(o, v)] [] ins = .ok l := by
  obtain ⟨hz, Y, x, hf, hw, hx⟩ := h.inv.fitted c hc
  obtain ⟨logps, h1, h2, h3, h4⟩ := hf.predict y (processInputs_present hy hi)
    (fun row hrow => by rw [hw row hrow, processInputs_length hy])
  refine ⟨hf.nodup, by rw [hz, keys_zipIdx], logps, h1, h2, h3, h4, ?_, ?_⟩
  · intro v hv
    rw [forest_logpdf ho hr, forestDensity, hz, get?_zipIdx hf.nodup, if_neg hv]
  · intro j v l hj hl
    obtain ⟨hjl, hj⟩ := List.getElem?_eq_some_iff.1 hj
    have hmem : v ∈ c.classes := by rw [← hj]; exact List.getElem_mem hjl
    have hidx : c.classes.idxOf v = j := by rw [← hj]; exact hf.nodup.idxOf_getElem j hjl
    rw [forest_logpdf ho hr, forestDensity, hz, get?_zipIdx hf.nodup, if_pos hmem, hc, Nat.zero_add, hidx]
    dsimp only
    rw [hy]
    change (do
      let logps ← c.predict y
      match logps[j]? with
      | some l => Except.ok l
      | none => Except.error Err.indexError : Except Err Fl) = _
    rw [h1]
    change (match logps[j]? with
      | some l => Except.ok l
      | none => Except.error Err.indexError : Except Err Fl) = _
    rw [hl]

/-- **C83, the part that holds.** For a forest whose last transition succeeded, and any complete
inputs, the probabilities of the classes sum to one, and every other value has probability zero.  The
classes are values of held rows. -/
theorem C83_partial {m : Forest} {rows : List RegRow} (h : ForestHistory m rows)
    {c : Classifier} (hc : m.regressor = .fitted c) {o : Var} (ho : m.outputs = [o]) {r : RowId}
    (hr : r ∉ Dict.keys m.data) {ins : Dict Var Val} {y : List Val} (hy : m.processInputs ins = .ok y)
    (hi : InputsPresent m.inputs ins) :
    c.classes.Nodup ∧
    (∀ v ∈ c.classes, v ≠ .nan ∧ (∃ t ∈ rows, t.2.1 = v) ∧
      ∃ l, m.logpdf r [(o, v)] [] ins = .ok l ∧ l.IsLogP) ∧
    (∀ v ∉ c.classes, m.logpdf r [(o, v)] [] ins = .ok .ninf) ∧
    (c.classes.map fun v => prob (m.logpdf r [(o, v)] [] ins)).sum = 1 := by
  obtain ⟨nd, -, logps, -, h2, h3, h4, h5, h6⟩ := forest_fitted h hc ho hr hy hi
  obtain ⟨-, Y, x, hf, -, hx⟩ := h.inv.fitted c hc
  refine ⟨nd, ?_, h5, ?_⟩
  · intro v hv
    obtain ⟨j, hj, rfl⟩ := List.getElem_of_mem hv
    have hj' : j < logps.length := by rw [h2]; exact hj
    obtain ⟨a, b⟩ := hx _ ((hf.mem _).1 hv)
    exact ⟨a, b, logps[j], h6 j _ _ (List.getElem?_eq_getElem hj) (List.getElem?_eq_getElem hj'),
      h3 _ (List.getElem_mem hj')⟩
  · rw [← h4]
    congr 1
    refine List.ext_getElem (by simp [h2]) fun j h1 h2' => ?_
    simp only [List.length_map] at h1 h2'
    rw [List.getElem_map, List.getElem_map,
      h6 j _ _ (List.getElem?_eq_getElem h1) (List.getElem?_eq_getElem h2')]
    rfl

example := C83_partial Concrete.forest3_history rfl (o := 7) rfl (r := some 9)
  (by simp [Concrete.forest3, Dict.keys]) (ins := Concrete.regIns)
  (y := [.num 1, .num (1/2), .num 0, .num 1]) rfl Concrete.regIns_present

/-! ### C84: simulation -/

theorem orOne_pos (N : Option Nat) (h : N ≠ some 0) : Forest.orOne N = N.getD 1 := by
  rcases N with _ | _ | n
  · rfl
  · exact absurd rfl h
  · rfl

theorem dictify_ok (o : Var) (l : List Val) (N : Option Nat) (h : l.length = N.getD 1) :
    ∃ out, dictifySamples o l N = .ok out ∧ samplesOf out = l.map (fun v => [(o, v)]) ∧
      ((∃ s, out = .one s) ↔ N = none) := by
  cases N with
  | none =>
    rcases l with _ | ⟨v, _ | ⟨w, l⟩⟩
    · simp at h
    · exact ⟨_, rfl, rfl, by simp⟩
    · simp at h
  | some n => exact ⟨_, if_pos h, rfl, by simp⟩

theorem choices_ok {k : Nat} (hk : 0 < k) (n : Nat) (rng : Rng) :
    ∃ l rng', choices k n rng = (.ok l, rng') ∧ l.length = n ∧
      ∀ v ∈ l, ∃ j : Nat, j < k ∧ v = .num j := by
  induction n generalizing rng with
  | zero => exact ⟨[], rng, rfl, rfl, nofun⟩
  | succ n ih =>
    obtain ⟨l, rng', e, hl, hv⟩ := ih rng.uniform.2
    refine ⟨.num ((⌊rng.uniform.1 * k⌋ : Int) : ℚ) :: l, rng', ?_, by simp [hl], ?_⟩
    · have hk' : k ≠ 0 := by omega
      unfold choices
      rw [if_neg hk']
      change (choices k n >>= fun l => pure (.num ((⌊rng.uniform.1 * k⌋ : Int) : ℚ) :: l))
        rng.uniform.2 = _
      rw [Py.bind_apply, e]
      rfl
    · intro v hm
      rcases List.mem_cons.1 hm with rfl | hm
      · have hk' : (0 : ℝ) < k := by exact_mod_cast hk
        have h0 : 0 ≤ rng.uniform.1 := Int.fract_nonneg _
        have h1 : rng.uniform.1 < 1 := Int.fract_lt_one _
        have hz : 0 ≤ ⌊rng.uniform.1 * k⌋ := Int.floor_nonneg.2 (by positivity)
        obtain ⟨j, hj⟩ := Int.eq_ofNat_of_zero_le hz
        refine ⟨j, ?_, by rw [hj]; simp⟩
        have h2 : ((⌊rng.uniform.1 * k⌋ : Int) : ℝ) ≤ rng.uniform.1 * k := Int.floor_le _
        rw [hj] at h2
        have h3 : rng.uniform.1 * k < k := by nlinarith
        have : (j : ℝ) < k := by
          calc (j : ℝ) = ((Int.ofNat j : Int) : ℝ) := by simp
            _ ≤ _ := h2
            _ < k := h3
        exact_mod_cast this
      · exact hv v hm

theorem flips_ok {logps : List Fl} {classes : List Val} (hl : logps.length = classes.length)
    (h : ∀ l ∈ logps, l.IsLogP) (hs : (logps.map Fl.exp).sum = 1) (n : Nat) (rng : Rng) :
    ∃ l rng', flips logps classes n rng = (.ok l, rng') ∧ l.length = n ∧
      ∀ v ∈ l, ∃ j : Nat, classes[j]? = some v ∧ ∃ x, logps[j]? = some x ∧ 0 < x.exp := by
  induction n generalizing rng with
  | zero => exact ⟨[], rng, rfl, rfl, nofun⟩
  | succ n ih =>
    have hne : logps ≠ [] := by rintro rfl; simp at hs
    obtain ⟨i, rng1, e1, hi, hp⟩ := logPflipIdx_ok logps hne h (by rw [hs]; norm_num) rng
    obtain ⟨l, rng', e, hl', hv⟩ := ih rng1
    have hi' : i < classes.length := by rw [← hl]; exact hi
    refine ⟨classes[i] :: l, rng', ?_, by simp [hl'], ?_⟩
    · unfold flips
      rw [Py.bind_apply, e1]
      dsimp only
      rw [List.getElem?_eq_getElem hi']
      dsimp only
      rw [Py.bind_apply, e]
      rfl
    · intro v hm
      rcases List.mem_cons.1 hm with rfl | hm
      · refine ⟨i, List.getElem?_eq_getElem hi', logps[i], List.getElem?_eq_getElem hi, ?_⟩
        rwa [List.getD_eq_getElem?_getD, List.getElem?_map, List.getElem?_eq_getElem hi] at hp
      · exact hv v hm

/-- The values `simulate` draws before it arranges them. -/
noncomputable def forestDraws (m : Forest) (r : RowId) (ins : Dict Var Val) (n : Nat) :
    Py Rng (List Val) :=
  match Dict.get? m.data r with
  | some x => pure (List.replicate n x)
  | none => match m.regressor with
    | .unfitted => Py.throw .attributeError
    | .absent => choices m.k n
    | .fitted reg => do
      let yDum ← Py.lift (m.processInputs ins)
      let logps ← Py.lift (reg.predict yDum)
      flips logps (Dict.keys m.classToIndex) n

theorem forest_simulate {m : Forest} {o : Var} (ho : m.outputs = [o]) (r : RowId)
    (ins : Dict Var Val) (N : Option Nat) (rng : Rng) :
    m.simulate r [o] [] ins N rng =
      match forestDraws m r ins (Forest.orOne N) rng with
      | (.ok l, rng') => (dictifySamples o l N, rng')
      | (.error e, rng') => (.error e, rng') := by
  have hf : firstOutput m.outputs = .ok o := by rw [ho]; rfl
  unfold Forest.simulate
  rw [Py.assert_bind_pos ho.symm, Py.assert_bind_pos rfl]
  unfold forestDraws
  cases Dict.get? m.data r with
  | some x =>
    dsimp only
    rw [Py.bind_apply]
    change (Py.lift (firstOutput m.outputs) >>= fun o => Py.lift (dictifySamples o (List.replicate (Forest.orOne N) x) N)) rng = _
    rw [Py.bind_apply, Py.lift_apply, hf]; rfl
  | none =>
    dsimp only
    cases m.regressor with
    | unfitted => rfl
    | absent =>
      dsimp only
      rw [Py.bind_apply]
      rcases choices m.k (Forest.orOne N) rng with ⟨e | l, rng'⟩
      · rfl
      · dsimp only
        rw [Py.bind_apply, Py.lift_apply, hf]; rfl
    | fitted c =>
      dsimp only
      cases hy : m.processInputs ins with
      | error e => rfl
      | ok y =>
        cases hp : c.predict y with
        | error e =>
          change (Py.lift (c.predict y) >>= fun logps => _) rng =
            match (Py.lift (c.predict y) >>= fun logps => _) rng with
            | (.ok l, rng') => (dictifySamples o l N, rng')
            | (.error e, rng') => (.error e, rng')
          rw [hp]; rfl
        | ok logps =>
          change (Py.lift (c.predict y) >>= fun logps => do
              let samples ← flips logps (Dict.keys m.classToIndex) (Forest.orOne N)
              let o ← Py.lift (firstOutput m.outputs)
              Py.lift (dictifySamples o samples N)) rng =
            match (Py.lift (c.predict y) >>= fun logps =>
                flips logps (Dict.keys m.classToIndex) (Forest.orOne N)) rng with
            | (.ok l, rng') => (dictifySamples o l N, rng')
            | (.error e, rng') => (.error e, rng')
          rw [hp]
          change (flips logps (Dict.keys m.classToIndex) (Forest.orOne N) >>= fun samples => do
              let o ← Py.lift (firstOutput m.outputs)
              Py.lift (dictifySamples o samples N)) rng =
            match flips logps (Dict.keys m.classToIndex) (Forest.orOne N) rng with
            | (.ok l, rng') => (dictifySamples o l N, rng')
            | (.error e, rng') => (.error e, rng')
          rw [Py.bind_apply]
          rcases flips logps (Dict.keys m.classToIndex) (Forest.orOne N) rng with ⟨e | l, rng'⟩
          · rfl
          · dsimp only
            rw [Py.bind_apply, Py.lift_apply, hf]; rfl

/-- **C84, the samples of a trained forest.** With complete inputs, `simulate` succeeds from every
random state and returns one sample, or a list of as many as asked for, if that is not 0.  For a held
row each sample is the value held; for a new row it is a class to which `logpdf` gives a positive
probability. -/
theorem C84_samples {m : Forest} {rows : List RegRow} (h : ForestHistory m rows)
    {c : Classifier} (hc : m.regressor = .fitted c) {o : Var} (ho : m.outputs = [o]) (r : RowId)
    {ins : Dict Var Val} {y : List Val} (hy : m.processInputs ins = .ok y)
    (hi : InputsPresent m.inputs ins) {N : Option Nat} (hN : N ≠ some 0) (rng : Rng) :
    ∃ out rng', m.simulate r [o] [] ins N rng = (.ok out, rng') ∧
      (samplesOf out).length = N.getD 1 ∧ ((∃ s, out = .one s) ↔ N = none) ∧
      ∀ s ∈ samplesOf out, ∃ v, s = [(o, v)] ∧ (∀ x, Dict.get? m.data r = some x → v = x) ∧
        (Dict.get? m.data r = none → v ∈ c.classes ∧ 0 < prob (m.logpdf r [(o, v)] [] ins)) := by
  rw [forest_simulate ho]
  cases hd : Dict.get? m.data r with
  | some x =>
    have e : forestDraws m r ins (Forest.orOne N) rng = (.ok (List.replicate (Forest.orOne N) x), rng) := by
      unfold forestDraws; rw [hd]; rfl
    rw [e]
    obtain ⟨out, e1, e2, e3⟩ := dictify_ok o (List.replicate (Forest.orOne N) x) N
      (by rw [List.length_replicate, orOne_pos N hN])
    refine ⟨out, rng, by dsimp only; rw [e1], by rw [e2]; simp [orOne_pos N hN], e3, ?_⟩
    intro s hs
    rw [e2] at hs
    obtain ⟨v, hv, rfl⟩ := List.mem_map.1 hs
    refine ⟨v, rfl, ?_, nofun⟩
    intro x' hx'
    rw [← Option.some.inj hx']
    exact (List.mem_replicate.1 hv).2
  | none =>
    have hr : r ∉ Dict.keys m.data := (Dict.get?_eq_none_iff _ _).1 hd
    obtain ⟨nd, hk, logps, h1, h2, h3, h4, h5, h6⟩ := forest_fitted h hc ho hr hy hi
    obtain ⟨l, rng', e, hl, hv⟩ := flips_ok h2 h3 h4 (Forest.orOne N) rng
    have e0 : forestDraws m r ins (Forest.orOne N) rng = (.ok l, rng') := by
      unfold forestDraws
      rw [hd, hc]
      dsimp only
      rw [Py.bind_apply, Py.lift_apply, hy]
      dsimp only
      rw [Py.bind_apply, Py.lift_apply, h1]
      dsimp only
      rw [hk]; exact e
    rw [e0]
    obtain ⟨out, e1, e2, e3⟩ := dictify_ok o l N (by rw [hl, orOne_pos N hN])
    refine ⟨out, rng', by dsimp only; rw [e1], by rw [e2, List.length_map, hl, orOne_pos N hN], e3, ?_⟩
    intro s hs
    rw [e2] at hs
    obtain ⟨v, hm, rfl⟩ := List.mem_map.1 hs
    obtain ⟨j, hj, x, hx, hp⟩ := hv v hm
    refine ⟨v, rfl, nofun, fun _ => ⟨List.mem_of_getElem? hj, ?_⟩⟩
    rw [h6 j v x hj hx]; exact hp

example := C84_samples Concrete.forest3_history rfl (o := 7) rfl (some 9) (ins := Concrete.regIns)
  (y := [.num 1, .num (1/2), .num 0, .num 1]) rfl Concrete.regIns_present (N := some 3) (by simp)

/-- **C84, the law.** For a trained forest, complete inputs and a row that is not held, the chance over
the next uniform variate that `simulate` returns `v` is the probability that `logpdf` reports, for
every value `v`. -/
theorem C84_law {m : Forest} {rows : List RegRow} (h : ForestHistory m rows)
    {c : Classifier} (hc : m.regressor = .fitted c) {o : Var} (ho : m.outputs = [o]) {r : RowId}
    (hr : r ∉ Dict.keys m.data) {ins : Dict Var Val} {y : List Val} (hy : m.processInputs ins = .ok y)
    (hi : InputsPresent m.inputs ins) (rng : Rng) (v : Val) :
    chance (fun u => (m.simulate r [o] [] ins none (withUniform u rng)).1 = .ok (.one [(o, v)]))
      = ENNReal.ofReal (prob (m.logpdf r [(o, v)] [] ins)) := by
  have hd : Dict.get? m.data r = none := (Dict.get?_eq_none_iff _ _).2 hr
  obtain ⟨nd, hk, logps, h1, h2, h3, h4, h5, h6⟩ := forest_fitted h hc ho hr hy hi
  have hne : logps ≠ [] := by rintro rfl; simp at h4
  have e : ∀ u, (m.simulate r [o] [] ins none (withUniform u rng)).1 = .ok (.one [(o, v)]) ↔
      ∃ i, (logPflipIdx logps (withUniform u rng)).1 = .ok i ∧ c.classes[i]? = some v := by
    intro u
    obtain ⟨i, rng1, e1, hi', -⟩ := logPflipIdx_ok logps hne h3 (by rw [h4]; norm_num) (withUniform u rng)
    have hi2 : i < c.classes.length := by rw [← h2]; exact hi'
    have e0 : forestDraws m r ins (Forest.orOne none) (withUniform u rng) = (.ok [c.classes[i]], rng1) := by
      unfold forestDraws
      rw [hd, hc]
      dsimp only
      rw [Py.bind_apply, Py.lift_apply, hy]
      dsimp only
      rw [Py.bind_apply, Py.lift_apply, h1]
      dsimp only
      rw [hk]
      change flips logps c.classes 1 _ = _
      unfold flips
      rw [Py.bind_apply, e1]
      dsimp only
      rw [List.getElem?_eq_getElem hi2]
      rfl
    rw [forest_simulate ho, e0, e1]
    change (Except.ok (SimOut.one [(o, c.classes[i])]) : Except Err SimOut) = _ ↔ _
    simp [List.getElem?_eq_getElem hi2]
  rw [chance_congr fun u _ => e u]
  by_cases hv : v ∈ c.classes
  · obtain ⟨j, hj, rfl⟩ := List.getElem_of_mem hv
    have hj' : j < logps.length := by rw [h2]; exact hj
    have : ∀ u : ℝ, (∃ i, (logPflipIdx logps (withUniform u rng)).1 = .ok i ∧
        c.classes[i]? = some c.classes[j]) ↔ (logPflipIdx logps (withUniform u rng)).1 = .ok j := by
      intro u
      constructor
      · rintro ⟨i, e1, e2⟩
        obtain ⟨hi2, e2⟩ := List.getElem?_eq_some_iff.1 e2
        rw [e1, (nd.getElem_inj_iff).1 e2]
      · intro e1
        exact ⟨j, e1, List.getElem?_eq_getElem hj⟩
    rw [chance_congr fun u _ => this u, chance_logPflipIdx logps h3 (by rw [h4]; norm_num) rng j hj',
      h4, div_one, h6 j _ _ (List.getElem?_eq_getElem hj) (List.getElem?_eq_getElem hj'),
      List.getD_eq_getElem?_getD, List.getElem?_map, List.getElem?_eq_getElem hj']
    rfl
  · rw [h5 v hv, prob_ninf, ENNReal.ofReal_zero, ← chance_false]
    refine chance_congr fun u _ => ⟨?_, False.elim⟩
    rintro ⟨i, -, e2⟩
    exact hv (List.mem_of_getElem? e2)

example := C84_law Concrete.forest3_history rfl (o := 7) rfl (r := some 9)
  (by simp [Concrete.forest3, Dict.keys]) (ins := Concrete.regIns)
  (y := [.num 1, .num (1/2), .num 0, .num 1]) rfl Concrete.regIns_present (fun _ => ⟨0, 0⟩) (.num 1)

/-- **C84, before the first transition.** Samples of a new row are numbers from 0 to k - 1, whatever
the inputs, each with chance 1 / k. -/
theorem C84_untrained {m : Forest} {rows : List RegRow} (_h : ForestHistory m rows)
    (ha : m.regressor = .absent) (hk : 0 < m.k) {o : Var} (ho : m.outputs = [o]) {r : RowId}
    (hr : r ∉ Dict.keys m.data) (ins : Dict Var Val) (rng : Rng) :
    (∀ N, N ≠ some 0 → ∃ out rng', m.simulate r [o] [] ins N rng = (.ok out, rng') ∧
      (samplesOf out).length = N.getD 1 ∧ ((∃ s, out = .one s) ↔ N = none) ∧
      ∀ s ∈ samplesOf out, ∃ j : Nat, j < m.k ∧ s = [(o, .num j)]) ∧
    ∀ j : Nat, j < m.k →
      chance (fun u => (m.simulate r [o] [] ins none (withUniform u rng)).1 = .ok (.one [(o, .num j)]))
        = ENNReal.ofReal (1 / m.k) := by
  have hd : Dict.get? m.data r = none := (Dict.get?_eq_none_iff _ _).2 hr
  have e0 : ∀ n g, forestDraws m r ins n g = choices m.k n g := by
    intro n g; unfold forestDraws; rw [hd, ha]
  constructor
  · intro N hN
    obtain ⟨l, rng', e, hl, hv⟩ := choices_ok hk (Forest.orOne N) rng
    rw [forest_simulate ho, e0, e]
    obtain ⟨out, e1, e2, e3⟩ := dictify_ok o l N (by rw [hl, orOne_pos N hN])
    refine ⟨out, rng', by dsimp only; rw [e1], by rw [e2, List.length_map, hl, orOne_pos N hN], e3, ?_⟩
    intro s hs
    rw [e2] at hs
    obtain ⟨v, hm, rfl⟩ := List.mem_map.1 hs
    obtain ⟨j, hj, rfl⟩ := hv v hm
    exact ⟨j, hj, rfl⟩
  · intro j hj
    have hk0 : m.k ≠ 0 := by omega
    have hk' : (0 : ℝ) < m.k := by exact_mod_cast hk
    have e : ∀ u ∈ Set.Ico (0 : ℝ) 1,
        ((m.simulate r [o] [] ins none (withUniform u rng)).1 = .ok (.one [(o, .num j)]) ↔
          (j : ℝ) / m.k ≤ u ∧ u < (j + 1) / m.k) := by
      intro u hu
      have e1 : choices m.k 1 (withUniform u rng) =
          (.ok [.num ((⌊u * m.k⌋ : Int) : ℚ)], (withUniform u rng).uniform.2) := by
        unfold choices
        rw [if_neg hk0]
        change ((.ok [.num ((⌊(withUniform u rng).uniform.1 * m.k⌋ : Int) : ℚ)],
          (withUniform u rng).uniform.2) : Except Err (List Val) × Rng) = _
        rw [withUniform_uniform u hu]
      rw [forest_simulate ho, e0]
      change (match choices m.k 1 (withUniform u rng) with
        | (.ok l, rng') => (dictifySamples o l none, rng')
        | (.error e, rng') => (.error e, rng') : Except Err SimOut × Rng).1 = _ ↔ _
      rw [e1]
      change (Except.ok (SimOut.one [(o, .num ((⌊u * m.k⌋ : Int) : ℚ))]) : Except Err SimOut) = _ ↔ _
      rw [div_le_iff₀ hk', lt_div_iff₀ hk']
      have hfl := Int.floor_eq_iff (a := u * m.k) (z := (j : Int))
      constructor
      · intro e
        have e : Val.num ((⌊u * m.k⌋ : Int) : ℚ) = .num (j : ℚ) := by simpa using e
        have e : ((⌊u * m.k⌋ : Int) : ℚ) = (j : ℚ) := Val.num.inj e
        have e : ⌊u * m.k⌋ = (j : Int) := by exact_mod_cast e
        have := hfl.1 e
        exact_mod_cast this
      · intro e
        have e : ⌊u * m.k⌋ = (j : Int) := hfl.2 (by exact_mod_cast e)
        rw [e]; simp
    rw [chance_congr e]
    unfold chance
    have hset : {u : ℝ | u ∈ Set.Ico 0 1 ∧ ((j : ℝ) / m.k ≤ u ∧ u < (j + 1) / m.k)} =
        Set.Ico ((j : ℝ) / m.k) ((j + 1) / m.k) := by
      ext u
      simp only [Set.mem_ofPred_eq, Set.mem_Ico]
      constructor
      · rintro ⟨-, h⟩; exact h
      · rintro ⟨a, b⟩
        have h0 : (0 : ℝ) ≤ (j : ℝ) / m.k := by positivity
        have h1 : ((j : ℝ) + 1) / m.k ≤ 1 := by
          rw [div_le_one hk']; exact_mod_cast hj
        exact ⟨⟨by linarith, by linarith⟩, a, b⟩
    rw [hset, Real.volume_Ico, ← sub_div]
    congr 2
    ring

example := C84_untrained Concrete.forest2_history rfl (by decide) (o := 7) rfl (r := some 9)
  (by simp [Concrete.forest2, Dict.keys]) [] (fun _ => ⟨0, 0⟩)

/-- **C84 is violated for no samples.** Asked for 0 samples of a held row, a forest raises
AssertionError instead of returning the empty list.  So does one without a transition for a new row. -/
theorem C84_zero_violated {m : Forest} {rows : List RegRow} (_h : ForestHistory m rows) {o : Var}
    (ho : m.outputs = [o]) (r : RowId) (ins : Dict Var Val)
    (hr : r ∈ Dict.keys m.data ∨ (m.regressor = .absent ∧ 0 < m.k)) (rng : Rng) :
    (m.simulate r [o] [] ins (some 0) rng).1 = .error .assertionError := by
  rw [forest_simulate ho]
  have : ∃ v rng', forestDraws m r ins (Forest.orOne (some 0)) rng = (.ok [v], rng') := by
    cases hd : Dict.get? m.data r with
    | some x => exact ⟨x, rng, by unfold forestDraws; rw [hd]; rfl⟩
    | none =>
      rcases hr with hr | ⟨ha, hk⟩
      · exact absurd hr ((Dict.get?_eq_none_iff _ _).1 hd)
      · obtain ⟨l, rng', e, hl, -⟩ := choices_ok hk 1 rng
        obtain ⟨v, rfl⟩ := List.length_eq_one_iff.1 hl
        exact ⟨v, rng', by unfold forestDraws; rw [hd, ha]; exact e⟩
  obtain ⟨v, rng', e⟩ := this
  rw [e]
  rfl

example := C84_zero_violated Concrete.forest2_history (o := 7) rfl (some 0) []
  (Or.inl (by simp [Concrete.forest2, Dict.keys]))

/-! ### C85: training -/

/-- **C85.** A transition of a forest that holds rows fits the classifier to exactly the complete rows,
in the order they were observed, each with its coded inputs.  If this succeeds, the classifier and its
classes are stored and nothing else is changed; if it raises, so does the transition, and the rows
held stay as they are. -/
theorem C85 {m : Forest} {rows : List RegRow} (h : ForestHistory m rows) (nd : m.inputs.Nodup)
    (h1 : 1 ∉ m.distLevels) (hne : rows ≠ []) :
    ∃ used : List RegRow, ∃ Y : List (List Val),
      used.Sublist rows ∧ (∀ t, t ∈ used ↔ t ∈ rows ∧ t.Complete m.inputs) ∧
      List.Forall₂ (fun t y => m.processInputs t.2.2 = .ok y) used Y ∧
      ∀ fit : List (List Val) → List Val → Except Err Classifier,
        (∀ c, fit Y (used.map fun t => t.2.1) = .ok c → c.classes.Nodup →
          Forest.transition fit m =
            (.ok (), { m with regressor := .fitted c, classToIndex := c.classes.zipIdx })) ∧
        (∀ e, fit Y (used.map fun t => t.2.1) = .error e →
          Forest.transition fit m = (.error e, { m with regressor := .unfitted })) := by
  have hI := h.inv
  have hL : ∀ i L, Dict.get? m.levels i = some L → L ≠ 1 ∧ L ≠ 0 := by
    intro i L hL
    rw [forest_levels h nd] at hL
    unfold declared at hL
    cases hf : (m.inputs.zip m.distLevels).find? fun il => il.1 = i with
    | none => rw [hf] at hL; exact nomatch hL
    | some il =>
      rw [hf] at hL
      dsimp only at hL
      split at hL
      · exact nomatch hL
      · next h0 =>
        cases hL
        have hm : il.2 ∈ m.distLevels :=
          (List.of_mem_zip (a := il.1) (b := il.2) (List.mem_of_find?_eq_some hf)).2
        exact ⟨fun e => h1 (e ▸ hm), h0⟩
  refine ⟨m.trainingRows rows, (m.trainingRows rows).map fun t => m.code t.2.2, List.filter_sublist,
    ?_, ?_, ?_⟩
  · intro t
    unfold trainingRows
    rw [List.mem_filter]
    refine and_congr_right fun ht => ?_
    have hc := hI.coded t ht
    have hany : (m.code t.2.2).any Val.isNan = true ↔ Val.nan ∈ m.code t.2.2 := by
      rw [List.any_eq_true]
      constructor
      · rintro ⟨v, hv, hn⟩
        cases v with
        | nan => exact hv
        | num q => exact nomatch hn
      · intro hv; exact ⟨_, hv, rfl⟩
    have hval : t.2.1.isNan = true ↔ t.2.1 = .nan := by
      cases t.2.1 with
      | nan => simp [Val.isNan]
      | num q => simp [Val.isNan]
    rw [Bool.not_eq_true', Bool.or_eq_false_iff, ← Bool.not_eq_true, ← Bool.not_eq_true, hany, hval]
    constructor
    · rintro ⟨a, b⟩
      refine ⟨b, ?_⟩
      by_contra hp
      exact a (processInputs_absent (fun i e => (hL i 1 e).1 rfl) hc hp (fun i e => (hL i 0 e).2 rfl))
    · rintro ⟨a, b⟩
      exact ⟨processInputs_present hc b, a⟩
  · rw [List.forall₂_map_right_iff, List.forall₂_same]
    intro t ht
    exact hI.coded t (List.mem_filter.1 ht).1
  · intro fit
    rcases transition_cases hI fit with ⟨e, -⟩ | ⟨e', he', e⟩ | ⟨c, hc, e⟩
    · exact absurd e hne
    · constructor
      · intro c hc; rw [he'] at hc; exact nomatch hc
      · intro e2 hc; rw [he'] at hc; rw [e, Except.error.inj hc]
    · constructor
      · intro c' hc' hn
        rw [hc] at hc'
        cases hc'
        rw [e, Dict.update_nil_left _ (by rw [keys_zipIdx]; exact hn)]
      · intro e2 hc'; rw [hc] at hc'; exact nomatch hc'

example := C85 Concrete.forest2_history (by decide) (by decide) (by simp [Concrete.forestRows])

/-- A forest without rows cannot be trained: the transition raises and changes nothing. -/
theorem C85_no_rows {m : Forest} (h : ForestHistory m [])
    (fit : List (List Val) → List Val → Except Err Classifier) :
    Forest.transition fit m = (.error .valueError, m) := by
  unfold Forest.transition
  simp only [Py.bind_apply, Py.get_apply, Py.lift_apply, training_nil h.inv]

example := C85_no_rows Concrete.forest0_history Concrete.flatFit

end Props
end Cgpm2
