import Verif.Lemmas.PrimSteps
import Verif.Spec.History

/-!
# The primitives behind one dispatch: closed forms and invariants (helpers)
-/

namespace Cgpm2
open Spec

namespace Prim

/-- The state after a successful observe. -/
noncomputable def add (p : Prim) (r : RowId) (v : Val) : Prim :=
  match p with
  | crp c => match v with
    | .nan => crp c
    | .num q => crp (c.add r (truncate q))
  | categorical c => categorical (c.add r v)
  | bernoulli c => bernoulli (c.add r v)
  | normal c => normal (c.add r v)
  | normalUC c => normalUC (c.add r v)
  | poisson c => poisson (c.add r v)

/-- The state after a successful unobserve of a row holding `v`. -/
noncomputable def remove (p : Prim) (r : RowId) (v : Val) : Prim :=
  match p with
  | crp c => match v with
    | .nan => crp c
    | .num q => crp (c.remove r (truncate q))
  | categorical c => categorical (c.remove r v)
  | bernoulli c => bernoulli (c.remove r v)
  | normal c => normal (c.remove r v)
  | normalUC c => normalUC (c.remove r v)
  | poisson c => poisson (c.remove r v)

/-- The value kept for an observed value. -/
def stored (p : Prim) (v : Val) : Val :=
  match p, v with
  | crp _, .num q => .num ((truncate q : Int) : ℚ)
  | _, v => v

/-- The values `observe` accepts in this state. -/
def Legal (p : Prim) (v : Val) : Prop :=
  match p with
  | crp c => ∃ q, v = .num q ∧ truncate q ∈ c.support
  | categorical c => Categorical.Legal c.k v
  | bernoulli _ => Bernoulli.Legal v
  | normal _ => True
  | normalUC _ => True
  | poisson _ => Poisson.Legal v

/-- Representation invariant. -/
def Inv (p : Prim) : Prop :=
  match p with
  | crp c => c.Inv
  | categorical c => c.Inv
  | bernoulli c => c.Inv
  | normal c => c.Inv
  | normalUC c => c.Inv
  | poisson c => c.Inv

theorem Inv.out {p : Prim} (h : p.Inv) : ∃ o, p.outputs = [o] := by
  cases p <;> exact h.outputs

theorem keys_map_data (d : Dict RowId Int) :
    Dict.keys (d.map fun kv => (kv.1, Val.num ((kv.2 : Int) : ℚ))) = Dict.keys d := by
  simp [Dict.keys, List.map_map, Function.comp_def]

theorem get?_map_data (d : Dict RowId Int) (r : RowId) :
    Dict.get? (d.map fun kv => (kv.1, Val.num ((kv.2 : Int) : ℚ))) r =
      (Dict.get? d r).map fun x => Val.num ((x : Int) : ℚ) := by
  induction d with
  | nil => rfl
  | cons kv d ih =>
    obtain ⟨k, v⟩ := kv
    simp only [List.map_cons, Dict.get?]
    split
    · rfl
    · exact ih

theorem set_map_data (d : Dict RowId Int) (r : RowId) (x : Int) :
    (Dict.set d r x).map (fun kv => (kv.1, Val.num ((kv.2 : Int) : ℚ))) =
      Dict.set (d.map fun kv => (kv.1, Val.num ((kv.2 : Int) : ℚ))) r (.num (x : ℚ)) := by
  induction d with
  | nil => rfl
  | cons kv d ih =>
    obtain ⟨k, v⟩ := kv
    simp only [List.map_cons, Dict.set]
    split
    · rfl
    · simp [ih]

theorem del_map_data (d : Dict RowId Int) (r : RowId) :
    (Dict.del d r).map (fun kv => (kv.1, Val.num ((kv.2 : Int) : ℚ))) =
      Dict.del (d.map fun kv => (kv.1, Val.num ((kv.2 : Int) : ℚ))) r := by
  induction d with
  | nil => rfl
  | cons kv d ih =>
    obtain ⟨k, v⟩ := kv
    simp only [List.map_cons, Dict.del]
    split
    · rfl
    · simp [ih]

theorem Inv.nodup {p : Prim} (h : p.Inv) : (Dict.keys p.data).Nodup := by
  cases p with
  | crp c => rw [data, keys_map_data]; exact Crp.Inv.nodup h
  | categorical c => exact Categorical.Inv.nodup h
  | bernoulli c => exact Bernoulli.Inv.nodup h
  | normal c => exact Normal.Inv.nodup h
  | normalUC c => exact NormalUC.Inv.nodup h
  | poisson c => exact Poisson.Inv.nodup h

theorem observe_ok {p : Prim} {o : Var} (ho : p.outputs = [o]) {r : RowId}
    (hr : r ∉ Dict.keys p.data) {v : Val} (hv : p.Legal v) :
    p.observe r [(o, v)] [] = (.ok (), p.add r v) := by
  cases p with
  | crp c =>
    rw [data, keys_map_data] at hr
    obtain ⟨q, rfl, hq⟩ := hv
    simp only [observe, Py.wrap, Crp.observe_ok ho hr hq, add]
  | categorical c => simp only [observe, Py.wrap, Categorical.observe_ok ho hr hv, add]
  | bernoulli c => simp only [observe, Py.wrap, Bernoulli.observe_ok ho hr hv, add]
  | normal c => simp only [observe, Py.wrap, Normal.observe_ok ho hr v, add]
  | normalUC c => simp only [observe, Py.wrap, NormalUC.observe_ok ho hr v, add]
  | poisson c => simp only [observe, Py.wrap, Poisson.observe_ok ho hr hv, add]

theorem observe_cases {p : Prim} {o : Var} (ho : p.outputs = [o]) (r : RowId)
    (obs inp : Dict Var Val) :
    (∃ e, p.observe r obs inp = (.error e, p)) ∨
    (∃ v, obs = [(o, v)] ∧ inp = [] ∧ r ∉ Dict.keys p.data ∧ p.Legal v ∧
      p.observe r obs inp = (.ok (), p.add r v)) := by
  cases p with
  | crp c =>
    rcases Crp.observe_cases (s := c) ho r obs inp with ⟨e, he⟩ | ⟨q, h1, h2, h3, h4, h5⟩
    · exact Or.inl ⟨e, by simp only [observe, Py.wrap, he]⟩
    · refine Or.inr ⟨.num q, h1, h2, ?_, ⟨q, rfl, h4⟩, by simp only [observe, Py.wrap, h5, add]⟩
      rw [data, keys_map_data]; exact h3
  | categorical c =>
    rcases Categorical.observe_cases (s := c) ho r obs inp with ⟨e, he⟩ | ⟨q, h1, h2, h3, h4, h5⟩
    · exact Or.inl ⟨e, by simp only [observe, Py.wrap, he]⟩
    · exact Or.inr ⟨q, h1, h2, h3, h4, by simp only [observe, Py.wrap, h5, add]⟩
  | bernoulli c =>
    rcases Bernoulli.observe_cases (s := c) ho r obs inp with ⟨e, he⟩ | ⟨q, h1, h2, h3, h4, h5⟩
    · exact Or.inl ⟨e, by simp only [observe, Py.wrap, he]⟩
    · exact Or.inr ⟨q, h1, h2, h3, h4, by simp only [observe, Py.wrap, h5, add]⟩
  | normal c =>
    rcases Normal.observe_cases (s := c) ho r obs inp with ⟨e, he⟩ | ⟨q, h1, h2, h3, h5⟩
    · exact Or.inl ⟨e, by simp only [observe, Py.wrap, he]⟩
    · exact Or.inr ⟨q, h1, h2, h3, trivial, by simp only [observe, Py.wrap, h5, add]⟩
  | normalUC c =>
    rcases NormalUC.observe_cases (s := c) ho r obs inp with ⟨e, he⟩ | ⟨q, h1, h2, h3, h5⟩
    · exact Or.inl ⟨e, by simp only [observe, Py.wrap, he]⟩
    · exact Or.inr ⟨q, h1, h2, h3, trivial, by simp only [observe, Py.wrap, h5, add]⟩
  | poisson c =>
    rcases Poisson.observe_cases (s := c) ho r obs inp with ⟨e, he⟩ | ⟨q, h1, h2, h3, h4, h5⟩
    · exact Or.inl ⟨e, by simp only [observe, Py.wrap, he]⟩
    · exact Or.inr ⟨q, h1, h2, h3, h4, by simp only [observe, Py.wrap, h5, add]⟩

theorem unobserve_absent {p : Prim} {r : RowId} (hr : r ∉ Dict.keys p.data) :
    p.unobserve r = (.error .valueError, p) := by
  cases p with
  | crp c =>
    rw [data, keys_map_data] at hr
    simp only [unobserve, Py.wrap, Crp.unobserve_absent hr]
  | categorical c => simp only [unobserve, Py.wrap, Categorical.unobserve_absent hr]
  | bernoulli c => simp only [unobserve, Py.wrap, Bernoulli.unobserve_absent hr]
  | normal c => simp only [unobserve, Py.wrap, Normal.unobserve_absent hr]
  | normalUC c => simp only [unobserve, Py.wrap, NormalUC.unobserve_absent hr]
  | poisson c => simp only [unobserve, Py.wrap, Poisson.unobserve_absent hr]

theorem unobserve_held {p : Prim} (hI : p.Inv) {o : Var} (ho : p.outputs = [o]) {r : RowId}
    {v : Val} (hr : Dict.get? p.data r = some v) :
    p.unobserve r = (.ok ([(o, v)], []), p.remove r v) := by
  cases p with
  | crp c =>
    rw [data, get?_map_data] at hr
    obtain ⟨x, hx, rfl⟩ := Option.map_eq_some_iff.1 hr
    simp only [unobserve, Py.wrap, Crp.unobserve_held hI ho hx, remove, truncate_intCast]
  | categorical c => simp only [unobserve, Py.wrap, Categorical.unobserve_held ho hr, remove]
  | bernoulli c => simp only [unobserve, Py.wrap, Bernoulli.unobserve_held ho hr, remove]
  | normal c => simp only [unobserve, Py.wrap, Normal.unobserve_held ho hr, remove]
  | normalUC c => simp only [unobserve, Py.wrap, NormalUC.unobserve_held ho hr, remove]
  | poisson c => simp only [unobserve, Py.wrap, Poisson.unobserve_held ho hr, remove]

theorem data_add {p : Prim} {r : RowId} {v : Val} (hv : p.Legal v) :
    (p.add r v).data = Dict.set p.data r (p.stored v) := by
  cases p with
  | crp c =>
    obtain ⟨q, rfl, hq⟩ := hv
    simp only [add, data, Crp.add, set_map_data, stored]
  | categorical c => exact Categorical.data_add hv
  | bernoulli c => exact Bernoulli.data_add hv
  | normal c => exact Normal.data_add c r v
  | normalUC c => exact NormalUC.data_add c r v
  | poisson c => exact Poisson.data_add c r v

theorem data_remove {p : Prim} {r : RowId} {v : Val} (hr : Dict.get? p.data r = some v) :
    (p.remove r v).data = Dict.del p.data r := by
  cases p with
  | crp c =>
    rw [data, get?_map_data] at hr
    obtain ⟨x, hx, rfl⟩ := Option.map_eq_some_iff.1 hr
    simp only [remove, data, Crp.remove, del_map_data]
  | categorical c => exact Categorical.data_remove c r v
  | bernoulli c => exact Bernoulli.data_remove c r v
  | normal c => exact Normal.data_remove c r v
  | normalUC c => exact NormalUC.data_remove c r v
  | poisson c => exact Poisson.data_remove c r v

theorem inv_add {p : Prim} (hI : p.Inv) {r : RowId} (hr : r ∉ Dict.keys p.data) {v : Val}
    (hv : p.Legal v) : (p.add r v).Inv := by
  cases p with
  | crp c =>
    rw [data, keys_map_data] at hr
    obtain ⟨q, rfl, hq⟩ := hv
    exact Crp.inv_add hI hr (Crp.mem_support_nonneg hI hq)
  | categorical c => exact Categorical.inv_add hI hr hv
  | bernoulli c => exact Bernoulli.inv_add hI hr hv
  | normal c => exact Normal.inv_add hI hr v
  | normalUC c => exact NormalUC.inv_add hI hr v
  | poisson c => exact Poisson.inv_add hI hr hv

theorem inv_remove {p : Prim} (hI : p.Inv) {r : RowId} {v : Val}
    (hr : Dict.get? p.data r = some v) : (p.remove r v).Inv := by
  cases p with
  | crp c =>
    rw [data, get?_map_data] at hr
    obtain ⟨x, hx, rfl⟩ := Option.map_eq_some_iff.1 hr
    have := Crp.inv_remove hI hx
    simp only [remove, truncate_intCast]; exact this
  | categorical c => exact Categorical.inv_remove hI hr
  | bernoulli c => exact Bernoulli.inv_remove hI hr
  | normal c => exact Normal.inv_remove hI hr
  | normalUC c => exact NormalUC.inv_remove hI hr
  | poisson c => exact Poisson.inv_remove hI hr

theorem remove_add {p : Prim} (hI : p.Inv) {r : RowId} (hr : r ∉ Dict.keys p.data) {v : Val}
    (hv : p.Legal v) : (p.add r v).remove r (p.stored v) = p := by
  cases p with
  | crp c =>
    rw [data, keys_map_data] at hr
    obtain ⟨q, rfl, hq⟩ := hv
    simp only [add, stored, remove, truncate_intCast, Crp.remove_add hI hr]
  | categorical c => simp only [add, stored, remove, Categorical.remove_add hr]
  | bernoulli c => simp only [add, stored, remove, Bernoulli.remove_add hr]
  | normal c => simp only [add, stored, remove, Normal.remove_add hr]
  | normalUC c => simp only [add, stored, remove, NormalUC.remove_add hr]
  | poisson c => simp only [add, stored, remove, Poisson.remove_add hr]

theorem outputs_add (p : Prim) (r : RowId) (v : Val) : (p.add r v).outputs = p.outputs := by
  cases p <;> cases v <;> rfl

theorem outputs_remove (p : Prim) (r : RowId) (v : Val) : (p.remove r v).outputs = p.outputs := by
  cases p <;> cases v <;> rfl

theorem inputs_add (p : Prim) (r : RowId) (v : Val) : (p.add r v).inputs = p.inputs := by
  cases p <;> cases v <;> rfl

theorem inputs_remove (p : Prim) (r : RowId) (v : Val) : (p.remove r v).inputs = p.inputs := by
  cases p <;> cases v <;> rfl

theorem getHypers_add (p : Prim) (r : RowId) (v : Val) : (p.add r v).getHypers = p.getHypers := by
  cases p <;> cases v <;> rfl

theorem getHypers_remove (p : Prim) (r : RowId) (v : Val) :
    (p.remove r v).getHypers = p.getHypers := by
  cases p <;> cases v <;> rfl

theorem legalHypers_add (p : Prim) (r : RowId) (v : Val) :
    LegalHypers (p.add r v) ↔ LegalHypers p := by
  cases p <;> cases v <;> rfl

theorem legalHypers_remove (p : Prim) (r : RowId) (v : Val) :
    LegalHypers (p.remove r v) ↔ LegalHypers p := by
  cases p <;> cases v <;> rfl

/-- What set_hypers does. -/
theorem setHypers_cases (p : Prim) (h : Dict String ℝ) :
    (∃ e, p.setHypers h = (.error e, p)) ∨
    (∃ p', p.setHypers h = (.ok (), p') ∧ p'.data = p.data ∧ p'.outputs = p.outputs ∧
      p'.inputs = p.inputs ∧ p'.kind = p.kind ∧ (p.Inv → p'.Inv) ∧
      (LegalHypers p → LegalHypers p')) := by
  cases p with
  | crp c =>
    rcases Crp.setHypers_cases c h with ⟨e, he⟩ | ⟨a, _, ha, he⟩
    · exact Or.inl ⟨e, by simp only [setHypers, Py.wrap, he]⟩
    · refine Or.inr ⟨crp { c with alpha := a }, by simp only [setHypers, Py.wrap, he], rfl, rfl,
        rfl, rfl, ?_, fun _ => ha⟩
      rintro ⟨h1, h2, h3, h4, h5, h6⟩; exact ⟨h1, h2, h3, h4, h5, h6⟩
  | categorical c =>
    rcases Categorical.setHypers_cases c h with ⟨e, he⟩ | ⟨a, _, ha, he⟩
    · exact Or.inl ⟨e, by simp only [setHypers, Py.wrap, he]⟩
    · refine Or.inr ⟨categorical { c with alpha := a }, by simp only [setHypers, Py.wrap, he],
        rfl, rfl, rfl, rfl, ?_, fun h => ⟨ha, h.2⟩⟩
      rintro ⟨h1, h2, h3, h4, h5, h6⟩; exact ⟨h1, h2, h3, h4, h5, h6⟩
  | bernoulli c =>
    rcases Bernoulli.setHypers_cases c h with ⟨e, he⟩ | ⟨a, b, _, _, ha, hb, he⟩
    · exact Or.inl ⟨e, by simp only [setHypers, Py.wrap, he]⟩
    · refine Or.inr ⟨bernoulli { c with alpha := a, beta := b },
        by simp only [setHypers, Py.wrap, he], rfl, rfl, rfl, rfl, ?_, fun _ => ⟨ha, hb⟩⟩
      rintro ⟨h1, h2, h3, h4, h5⟩; exact ⟨h1, h2, h3, h4, h5⟩
  | normal c =>
    rcases Normal.setHypers_cases c h with ⟨e, he⟩ | ⟨m, r, s, nu, _, _, _, _, pr, ps, pn, he⟩
    · exact Or.inl ⟨e, by simp only [setHypers, Py.wrap, he]⟩
    · refine Or.inr ⟨normal { c with m := m, r := r, s := s, nu := nu },
        by simp only [setHypers, Py.wrap, he], rfl, rfl, rfl, rfl, ?_, fun _ => ⟨pr, ps, pn⟩⟩
      rintro ⟨h1, h2, h3, h4, h5, _, _, _⟩; exact ⟨h1, h2, h3, h4, h5, pr, ps, pn⟩
  | normalUC c =>
    rcases NormalUC.setHypers_cases c h with ⟨e, he⟩ | ⟨m, r, s, nu, _, _, _, _, pr, ps, pn, he⟩
    · exact Or.inl ⟨e, by simp only [setHypers, Py.wrap, he]⟩
    · refine Or.inr ⟨normalUC { c with hypers := NormalUC.hypersAfter c.hypers m r s nu },
        by simp only [setHypers, Py.wrap, he], rfl, rfl, rfl, rfl, ?_, fun h => h⟩
      rintro ⟨h1, h2, h3, h4, h5, h6⟩; exact ⟨h1, h2, h3, h4, h5, h6⟩
  | poisson c =>
    rcases Poisson.setHypers_cases c h with ⟨e, he⟩ | ⟨a, b, _, _, ha, hb, he⟩
    · exact Or.inl ⟨e, by simp only [setHypers, Py.wrap, he]⟩
    · refine Or.inr ⟨poisson { c with a := a, b := b },
        by simp only [setHypers, Py.wrap, he], rfl, rfl, rfl, rfl, ?_, fun _ => ⟨ha, hb⟩⟩
      rintro ⟨h1, h2, h3, h4, h5, h6, _, _⟩; exact ⟨h1, h2, h3, h4, h5, h6, ha, hb⟩

theorem setParams_cases (p : Prim) (h : Dict String ℝ) :
    (∃ e, p.setParams h = (.error e, p)) ∨
    (∃ p', p.setParams h = (.ok (), p') ∧ p'.data = p.data ∧ p'.outputs = p.outputs ∧
      p'.inputs = p.inputs ∧ p'.kind = p.kind ∧ p'.getHypers = p.getHypers ∧ (p.Inv → p'.Inv) ∧
      (LegalHypers p → LegalHypers p')) := by
  cases p with
  | normalUC c =>
    rcases NormalUC.setParams_cases c h with ⟨e, he⟩ | ⟨m, v, _, _, pv, he⟩
    · exact Or.inl ⟨e, by simp only [setParams, Py.wrap, he]⟩
    · refine Or.inr ⟨normalUC { c with mu := m, var := v },
        by simp only [setParams, Py.wrap, he], rfl, rfl, rfl, rfl, rfl, ?_, fun _ => pv⟩
      rintro ⟨h1, h2, h3, h4, h5, h6⟩; exact ⟨h1, h2, h3, h4, h5, pv⟩
  | _ => exact Or.inr ⟨_, rfl, rfl, rfl, rfl, rfl, rfl, id, id⟩

/-- The `params` attribute (a constructor argument no primitive reads). -/
def clearParams : Prim → Prim
  | crp c => crp { c with params := [] }
  | categorical c => categorical { c with params := [] }
  | bernoulli c => bernoulli { c with params := [] }
  | normal c => normal { c with params := [] }
  | normalUC c => normalUC { c with params := [] }
  | poisson c => poisson { c with params := [] }

theorem update_nil_of_nodup {K V : Type} [DecidableEq K] {d : Dict K V}
    (h : (Dict.keys d).Nodup) : Dict.update [] d = d := Dict.update_nil_left d h

theorem clone_eq {p : Prim} (hI : p.Inv) : fromMetadata p.toMetadata = .ok p.clearParams := by
  cases p with
  | crp c =>
    simp only [toMetadata, fromMetadata, Crp.fromMetadata, Crp.toMetadata, Crp.init, clearParams]
    rw [update_nil_of_nodup (Crp.Inv.nodup hI), update_nil_of_nodup (Crp.Inv.nodupC hI)]
  | categorical c =>
    simp only [toMetadata, fromMetadata, Categorical.fromMetadata, Categorical.toMetadata,
      Categorical.init, clearParams]
    rw [update_nil_of_nodup (Categorical.Inv.nodup hI)]
  | bernoulli c =>
    simp only [toMetadata, fromMetadata, Bernoulli.fromMetadata, Bernoulli.toMetadata,
      Bernoulli.init, clearParams]
    rw [update_nil_of_nodup (Bernoulli.Inv.nodup hI)]
  | normal c =>
    simp [toMetadata, fromMetadata, Normal.fromMetadata, Normal.toMetadata, Normal.init,
      clearParams, update_nil_of_nodup (Normal.Inv.nodup hI), Dict.get?, Except.map,
      bind, Except.bind, pure, Except.pure]
  | normalUC c =>
    simp [toMetadata, fromMetadata, NormalUC.fromMetadata, NormalUC.toMetadata, NormalUC.init,
      clearParams, update_nil_of_nodup (NormalUC.Inv.nodup hI), Dict.get?, Except.map,
      bind, Except.bind, pure, Except.pure]
  | poisson c =>
    simp [toMetadata, fromMetadata, Poisson.fromMetadata, Poisson.toMetadata, Poisson.init,
      clearParams, update_nil_of_nodup (Poisson.Inv.nodup hI), Dict.get?, Except.map,
      bind, Except.bind, pure, Except.pure]

theorem inv_clearParams {p : Prim} (hI : p.Inv) : p.clearParams.Inv := by
  cases p with
  | crp c => obtain ⟨h1, h2, h3, h4, h5, h6⟩ := hI; exact ⟨h1, h2, h3, h4, h5, h6⟩
  | categorical c => obtain ⟨h1, h2, h3, h4, h5, h6⟩ := hI; exact ⟨h1, h2, h3, h4, h5, h6⟩
  | bernoulli c => obtain ⟨h1, h2, h3, h4, h5⟩ := hI; exact ⟨h1, h2, h3, h4, h5⟩
  | normal c => obtain ⟨h1, h2, h3, h4, h5, h6, h7, h8⟩ := hI; exact ⟨h1, h2, h3, h4, h5, h6, h7, h8⟩
  | normalUC c => obtain ⟨h1, h2, h3, h4, h5, h6⟩ := hI; exact ⟨h1, h2, h3, h4, h5, h6⟩
  | poisson c => obtain ⟨h1, h2, h3, h4, h5, h6, h7, h8⟩ := hI; exact ⟨h1, h2, h3, h4, h5, h6, h7, h8⟩

theorem legalHypers_clearParams (p : Prim) : LegalHypers p.clearParams ↔ LegalHypers p := by
  cases p <;> rfl

theorem inv_created {p : Prim} (h : Created p) : p.Inv := by
  cases h with
  | crp => exact Crp.inv_init ..
  | categorical => exact Categorical.inv_init ..
  | bernoulli => exact Bernoulli.inv_init ..
  | normal h => exact Normal.inv_init h
  | normalUC h => exact NormalUC.inv_init h
  | poisson h => exact Poisson.inv_init h

theorem inv_step {p : Prim} (hI : p.Inv) (c : Call) : (step p c).Inv := by
  obtain ⟨o, ho⟩ := hI.out
  cases c with
  | observe r obs inp =>
    rcases observe_cases ho r obs inp with ⟨e, he⟩ | ⟨v, _, _, hr, hv, he⟩
    · simp only [step, he]; exact hI
    · simp only [step, he]; exact inv_add hI hr hv
  | unobserve r =>
    by_cases hr : r ∈ Dict.keys p.data
    · obtain ⟨v, hv⟩ := Dict.exists_get?_of_mem_keys hr
      simp only [step, unobserve_held hI ho hv]; exact inv_remove hI hv
    · simp only [step, unobserve_absent hr]; exact hI
  | setHypers h =>
    rcases setHypers_cases p h with ⟨e, he⟩ | ⟨p', he, _, _, _, _, h', _⟩
    · simp only [step, he]; exact hI
    · simp only [step, he]; exact h' hI
  | setParams h =>
    rcases setParams_cases p h with ⟨e, he⟩ | ⟨p', he, _, _, _, _, _, h', _⟩
    · simp only [step, he]; exact hI
    · simp only [step, he]; exact h' hI
  | clone => simp only [step, clone_eq hI]; exact inv_clearParams hI

theorem legalHypers_step {p : Prim} (hI : p.Inv) (hL : LegalHypers p) (c : Call) :
    LegalHypers (step p c) := by
  obtain ⟨o, ho⟩ := hI.out
  cases c with
  | observe r obs inp =>
    rcases observe_cases ho r obs inp with ⟨e, he⟩ | ⟨v, _, _, hr, hv, he⟩
    · simp only [step, he]; exact hL
    · simp only [step, he]; exact (legalHypers_add ..).2 hL
  | unobserve r =>
    by_cases hr : r ∈ Dict.keys p.data
    · obtain ⟨v, hv⟩ := Dict.exists_get?_of_mem_keys hr
      simp only [step, unobserve_held hI ho hv]; exact (legalHypers_remove ..).2 hL
    · simp only [step, unobserve_absent hr]; exact hL
  | setHypers h =>
    rcases setHypers_cases p h with ⟨e, he⟩ | ⟨p', he, _, _, _, _, _, h'⟩
    · simp only [step, he]; exact hL
    · simp only [step, he]; exact h' hL
  | setParams h =>
    rcases setParams_cases p h with ⟨e, he⟩ | ⟨p', he, _, _, _, _, _, _, h'⟩
    · simp only [step, he]; exact hL
    · simp only [step, he]; exact h' hL
  | clone => simp only [step, clone_eq hI]; exact (legalHypers_clearParams p).2 hL

theorem inv_run {p : Prim} (hI : p.Inv) (cs : List Call) : (run p cs).Inv := by
  unfold run
  induction cs generalizing p with
  | nil => exact hI
  | cons c cs ih => exact ih (inv_step hI c)

theorem legalHypers_run {p : Prim} (hI : p.Inv) (hL : LegalHypers p) (cs : List Call) :
    LegalHypers (run p cs) := by
  unfold run
  induction cs generalizing p with
  | nil => exact hL
  | cons c cs ih => exact ih (inv_step hI c) (legalHypers_step hI hL c)

end Prim

theorem Spec.Reachable.inv {p : Prim} (h : Reachable p) : p.Inv := by
  obtain ⟨p₀, cs, hc, rfl⟩ := h
  exact Prim.inv_run (Prim.inv_created hc) cs

theorem Spec.LegallyReachable.inv {p : Prim} (h : LegallyReachable p) : p.Inv := h.reachable.inv

theorem Spec.LegallyReachable.legal {p : Prim} (h : LegallyReachable p) : LegalHypers p := by
  obtain ⟨p₀, cs, hc, hl, rfl⟩ := h
  exact Prim.legalHypers_run (Prim.inv_created hc) hl cs

end Cgpm2
