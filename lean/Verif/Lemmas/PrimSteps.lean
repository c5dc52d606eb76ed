import Verif.Spec.Data
import Verif.Lemmas.CrpStep
import Verif.Model.Prim

/-!
# Closed forms of observe and unobserve, and representation invariants (helpers)
-/

namespace Cgpm2
open Spec

theorem present_append (l m : List Val) : present (l ++ m) = present l ++ present m := by
  simp [present]

@[simp] theorem present_nan : present [Val.nan] = [] := rfl
@[simp] theorem present_num (q : ℚ) : present [Val.num q] = [q] := rfl
@[simp] theorem present_nil : present [] = [] := rfl
theorem present_cons_nan (l : List Val) : present (Val.nan :: l) = present l := rfl
theorem present_cons_num (q : ℚ) (l : List Val) : present (Val.num q :: l) = q :: present l := rfl

theorem mem_present {l : List Val} {q : ℚ} : q ∈ present l ↔ Val.num q ∈ l := by
  induction l with
  | nil => simp
  | cons v l ih => cases v <;> simp [present_cons_nan, present_cons_num, ih]

theorem values_eq (d : Dict RowId Val) : Dict.values d = valuesOf d := rfl

theorem present_del {d : Dict RowId Val} {r : RowId} {v : Val} (h : Dict.get? d r = some v) :
    (present (valuesOf d)).Perm (present (v :: valuesOf (Dict.del d r))) :=
  (Dict.perm_values_del d r v h).filterMap _

theorem valuesOf_set {d : Dict RowId Val} {r : RowId} (h : r ∉ Dict.keys d) (v : Val) :
    valuesOf (Dict.set d r v) = valuesOf d ++ [v] := by
  rw [Dict.set_of_not_mem d r v h]; simp [valuesOf]

theorem isWhole_intCast (x : Int) : isWhole (x : ℚ) = true := by simp [isWhole]

theorem isWhole_iff {q : ℚ} : isWhole q = true ↔ ((truncate q : Int) : ℚ) = q := by
  constructor
  · intro h
    simp only [isWhole, beq_iff_eq] at h
    have : truncate q = q.num := by simp [truncate, h]
    rw [this]
    exact (Rat.den_eq_one_iff q).1 h
  · intro h; rw [← h]; exact isWhole_intCast _

theorem getItem_single (o : Var) (v : Val) :
    Dict.getItem ([(o, v)] : Dict Var Val) o = .ok v := by simp [Dict.getItem, Dict.get?]

theorem firstOutput_single (o : Var) : firstOutput [o] = .ok o := rfl

/-! ## Categorical -/
namespace Categorical

/-- The state after a successful `observe`. -/
def add (s : Categorical) (r : RowId) : Val → Categorical
  | .nan => { s with data := Dict.set s.data r .nan }
  | .num q =>
    { s with
      N := s.N + 1
      counts := s.counts.modify (truncate q).toNat (· + 1)
      data := Dict.set s.data r (.num (truncate q : ℚ)) }

/-- The state after a successful `unobserve` of a row holding `v`. -/
def remove (s : Categorical) (r : RowId) : Val → Categorical
  | .nan => { s with data := Dict.del s.data r }
  | .num q =>
    { s with
      data := Dict.del s.data r
      N := s.N - 1
      counts := s.counts.modify (truncate q).toNat (· - 1) }

/-- The values `observe` accepts. -/
def Legal (k : Nat) : Val → Prop
  | .nan => True
  | .num q => ∃ i : Nat, i < k ∧ q = i

theorem valid_iff {k : Nat} {q : ℚ} : valid k q = true ↔ ∃ i : Nat, i < k ∧ q = i := by
  unfold valid
  simp only [Bool.and_eq_true, decide_eq_true_eq]
  constructor
  · rintro ⟨⟨hw, h0⟩, hk⟩
    rw [isWhole_iff] at hw
    have h0' : 0 ≤ truncate q := by
      rw [← hw] at h0; exact_mod_cast h0
    refine ⟨(truncate q).toNat, ?_, ?_⟩
    · rw [← hw] at hk
      have : truncate q < (k : Int) := by exact_mod_cast hk
      omega
    · rw [← hw, truncate_intCast]
      have : (truncate q : ℚ) = (((truncate q).toNat : Int) : ℚ) := by
        rw [Int.toNat_of_nonneg h0']
      rw [this]; norm_cast
  · rintro ⟨i, hi, rfl⟩
    refine ⟨⟨?_, ?_⟩, ?_⟩
    · have := isWhole_intCast (i : Int); simpa using this
    · exact_mod_cast Nat.zero_le i
    · exact_mod_cast hi

/-- Representation invariant. -/
structure Inv (s : Categorical) : Prop where
  outputs : ∃ o, s.outputs = [o]
  nodup : (Dict.keys s.data).Nodup
  N : s.N = (present (valuesOf s.data)).length
  len : s.counts.length = s.k
  counts : ∀ i < s.k, s.counts.getD i 0 = ((present (valuesOf s.data)).count (i : ℚ) : Int)
  legal : ∀ v ∈ valuesOf s.data, Legal s.k v

theorem observe_ok {s : Categorical} {o : Var} (ho : s.outputs = [o]) {r : RowId}
    (hr : r ∉ Dict.keys s.data) {v : Val} (hv : Legal s.k v) :
    observe r [(o, v)] [] s = (.ok (), s.add r v) := by
  have hh : Dict.has s.data r = false := (Dict.has_eq_false_iff _ _).2 hr
  have hg : observeGuard r (Dict.has s.data r) s.outputs [(o, v)] [] = .ok () := by
    rw [ho]; exact observeGuard_ok_iff.2 ⟨hh, rfl, _, rfl⟩
  have hf : firstOutput s.outputs = .ok o := by rw [ho]; rfl
  unfold observe
  simp only [Py.bind_apply, Py.get_apply, Py.lift_apply, hg, hf, getItem_single]
  cases v with
  | nan => rfl
  | num q =>
    have hq : valid s.k q = true := valid_iff.2 hv
    simp [hq, add, Py.bind_apply]

theorem observe_cases {s : Categorical} {o : Var} (ho : s.outputs = [o]) (r : RowId)
    (obs inp : Dict Var Val) :
    (∃ e, observe r obs inp s = (.error e, s)) ∨
    (∃ v, obs = [(o, v)] ∧ inp = [] ∧ r ∉ Dict.keys s.data ∧ Legal s.k v ∧
      observe r obs inp s = (.ok (), s.add r v)) := by
  rcases observeGuard_error_or (r := r) (held := Dict.has s.data r) (o := o) (obs := obs)
    (inp := inp) with ⟨e, he⟩ | ⟨hg, hh, rfl, v, rfl⟩
  · left
    rw [← ho] at he
    exact ⟨e, by unfold observe; simp [Py.bind_apply, he]⟩
  · have hr : r ∉ Dict.keys s.data := (Dict.has_eq_false_iff _ _).1 hh
    by_cases hv : Legal s.k v
    · exact Or.inr ⟨v, rfl, rfl, hr, hv, observe_ok ho hr hv⟩
    · left
      have hf : firstOutput s.outputs = .ok o := by rw [ho]; rfl
      rw [← ho] at hg
      cases v with
      | nan => exact absurd trivial hv
      | num q =>
        have hq : valid s.k q = false := by
          rw [← Bool.not_eq_true]; exact fun h => hv (valid_iff.1 h)
        refine ⟨.valueError, ?_⟩
        unfold observe
        simp [Py.bind_apply, hg, hf, getItem_single, hq]

theorem unobserve_absent {s : Categorical} {r : RowId} (hr : r ∉ Dict.keys s.data) :
    unobserve r s = (.error .valueError, s) := by
  have hh : Dict.has s.data r = false := (Dict.has_eq_false_iff _ _).2 hr
  unfold unobserve
  simp [Py.bind_apply, unobserveGuard, hh]

theorem unobserve_held {s : Categorical} {o : Var} (ho : s.outputs = [o]) {r : RowId}
    {v : Val} (hr : Dict.get? s.data r = some v) :
    unobserve r s = (.ok ([(o, v)], []), s.remove r v) := by
  have hh : Dict.has s.data r = true := by simp [Dict.has, hr]
  have hf : firstOutput s.outputs = .ok o := by rw [ho]; rfl
  unfold unobserve
  cases v <;>
  simp [Py.bind_apply, unobserveGuard, hh, Dict.getItem_ok hr, hf, remove]

theorem data_add {s : Categorical} {r : RowId} {v : Val} (hv : Legal s.k v) :
    (s.add r v).data = Dict.set s.data r v := by
  cases v with
  | nan => rfl
  | num q =>
    obtain ⟨i, _, rfl⟩ := hv
    have : truncate (i : ℚ) = (i : Int) := by
      have := truncate_intCast (i : Int); simpa using this
    simp [add, this]

theorem getD_modify (l : List Int) (i j : Nat) (f : Int → Int) (hj : i < l.length) :
    (l.modify i f).getD j 0 = if i = j then f (l.getD j 0) else l.getD j 0 := by
  rw [List.getD_eq_getElem?_getD, List.getElem?_modify, List.getD_eq_getElem?_getD]
  by_cases h : i = j
  · subst h
    simp [hj]
  · simp [h]

theorem inv_add {s : Categorical} (hI : s.Inv) {r : RowId} (hr : r ∉ Dict.keys s.data) {v : Val}
    (hv : Legal s.k v) : (s.add r v).Inv := by
  have hdata := data_add (s := s) (r := r) hv
  have hvals : valuesOf (s.add r v).data = valuesOf s.data ++ [v] := by
    rw [hdata, valuesOf_set hr]
  refine ⟨?_, ?_, ?_, ?_, ?_, ?_⟩
  · cases v <;> exact hI.outputs
  · rw [hdata]; exact Dict.nodup_keys_set _ _ _ hI.nodup
  · rw [hvals, present_append]
    cases v with
    | nan => simp [add, hI.N]
    | num q => simp [add, hI.N]
  · cases v with
    | nan => exact hI.len
    | num q => simp [add, hI.len]
  · have hk : (s.add r v).k = s.k := by cases v <;> rfl
    rw [hk, hvals, present_append]
    intro j hj
    cases v with
    | nan => simpa [add] using hI.counts j hj
    | num q =>
      obtain ⟨i, hi, rfl⟩ := hv
      have ht : truncate (i : ℚ) = (i : Int) := by
        have := truncate_intCast (i : Int); simpa using this
      have hlen := hI.len
      have : (s.add r (.num (i : ℚ))).counts = s.counts.modify i (· + 1) := by simp [add, ht]
      rw [this, getD_modify _ _ _ _ (by omega), List.count_append, hI.counts j hj]
      by_cases h : i = j
      · subst h; simp
      · have : ¬ ((i : ℚ) = (j : ℚ)) := by exact_mod_cast h
        simp [h, this]
  · have hk : (s.add r v).k = s.k := by cases v <;> rfl
    rw [hk, hvals]
    intro w hw
    rcases List.mem_append.1 hw with hw | hw
    · exact hI.legal w hw
    · rw [List.mem_singleton] at hw; exact hw ▸ hv

theorem mem_values_of_get? {d : Dict RowId Val} {r : RowId} {v : Val}
    (h : Dict.get? d r = some v) : v ∈ valuesOf d :=
  List.mem_map.2 ⟨(r, v), Dict.mem_of_get? h, rfl⟩

theorem data_remove (s : Categorical) (r : RowId) (v : Val) :
    (s.remove r v).data = Dict.del s.data r := by cases v <;> rfl

theorem inv_remove {s : Categorical} (hI : s.Inv) {r : RowId} {v : Val}
    (hr : Dict.get? s.data r = some v) : (s.remove r v).Inv := by
  have hperm := present_del hr
  have hv := hI.legal v (mem_values_of_get? hr)
  have hk : (s.remove r v).k = s.k := by cases v <;> rfl
  refine ⟨?_, ?_, ?_, ?_, ?_, ?_⟩
  · cases v <;> exact hI.outputs
  · rw [data_remove]; exact Dict.nodup_keys_del _ _ hI.nodup
  · rw [data_remove]
    have hl := hperm.length_eq
    cases v with
    | nan => rw [present_cons_nan] at hl; simp [remove, hI.N, hl]
    | num q => rw [present_cons_num] at hl; simp [remove, hI.N, hl]
  · cases v with
    | nan => exact hI.len
    | num q => simp [remove, hI.len]
  · rw [hk, data_remove]
    intro j hj
    have hc := hperm.count_eq (j : ℚ)
    have hcj := hI.counts j hj
    cases v with
    | nan => rw [present_cons_nan] at hc; simp only [remove]; rw [hcj, hc]
    | num q =>
      rw [present_cons_num] at hc
      obtain ⟨i, hi, rfl⟩ := hv
      have ht : truncate (i : ℚ) = (i : Int) := by
        have := truncate_intCast (i : Int); simpa using this
      have hlen := hI.len
      have : (s.remove r (.num (i : ℚ))).counts = s.counts.modify i (· - 1) := by
        simp [remove, ht]
      rw [this, getD_modify _ _ _ _ (by omega), hcj, hc, List.count_cons]
      by_cases h : i = j
      · subst h; simp
      · have : ¬ ((i : ℚ) = (j : ℚ)) := by exact_mod_cast h
        simp [h, this]
  · rw [hk, data_remove]
    intro w hw
    exact hI.legal w ((Dict.perm_values_del _ _ _ hr).mem_iff.2 (List.mem_cons_of_mem _ hw))

theorem modify_modify_cancel (l : List Int) (i : Nat) : (l.modify i (· + 1)).modify i (· - 1) = l := by
  apply List.ext_getElem?
  intro j
  rw [List.getElem?_modify, List.getElem?_modify]
  by_cases h : i = j
  · subst h; cases l[i]? <;> simp
  · simp [h]

theorem remove_add {s : Categorical} {r : RowId} (hr : r ∉ Dict.keys s.data) {v : Val} :
    (s.add r v).remove r v = s := by
  cases v with
  | nan => simp [add, remove, Dict.del_set_of_not_mem _ _ _ hr]
  | num q => simp [add, remove, Dict.del_set_of_not_mem _ _ _ hr, modify_modify_cancel]

theorem setHypers_cases (s : Categorical) (h : Dict String ℝ) :
    (∃ e, setHypers h s = (.error e, s)) ∨
    (∃ a, Dict.get? h "alpha" = some a ∧ 0 < a ∧ setHypers h s = (.ok (), { s with alpha := a })) := by
  unfold setHypers
  cases ha : Dict.get? h "alpha" with
  | none => left; exact ⟨.keyError, by simp [Py.bind_apply, Dict.getItem, ha]⟩
  | some a =>
    by_cases hp : 0 < a
    · right; exact ⟨a, rfl, hp, by simp [Py.bind_apply, Dict.getItem, ha, Py.assert_apply, hp]⟩
    · left
      exact ⟨.assertionError, by simp [Py.bind_apply, Dict.getItem, ha, Py.assert_apply, hp]⟩

theorem inv_init (o : Var) (inputs : List Var) (hypers params : Dict String ℝ) (k : Nat) :
    (init [o] inputs hypers params k).Inv where
  outputs := ⟨o, rfl⟩
  nodup := by simp [init]
  N := by simp [init, valuesOf]
  len := by simp [init]
  counts := by
    intro i hi
    simp only [init] at hi
    simp [init, valuesOf, hi]
  legal := by simp [init, valuesOf]

end Categorical

/-! ## Bernoulli -/
namespace Bernoulli

def add (s : Bernoulli) (r : RowId) : Val → Bernoulli
  | .nan => { s with data := Dict.set s.data r .nan }
  | .num q =>
    { s with
      N := s.N + 1
      xSum := s.xSum + truncate q
      data := Dict.set s.data r (.num (truncate q : ℚ)) }

def remove (s : Bernoulli) (r : RowId) : Val → Bernoulli
  | .nan => { s with data := Dict.del s.data r }
  | .num q =>
    { s with
      data := Dict.del s.data r
      N := s.N - 1
      xSum := s.xSum - truncate q }

def Legal : Val → Prop
  | .nan => True
  | .num q => q = 0 ∨ q = 1

structure Inv (s : Bernoulli) : Prop where
  outputs : ∃ o, s.outputs = [o]
  nodup : (Dict.keys s.data).Nodup
  N : s.N = (present (valuesOf s.data)).length
  xSum : s.xSum = ((present (valuesOf s.data)).count 1 : Int)
  legal : ∀ v ∈ valuesOf s.data, Legal v

theorem observe_ok {s : Bernoulli} {o : Var} (ho : s.outputs = [o]) {r : RowId}
    (hr : r ∉ Dict.keys s.data) {v : Val} (hv : Legal v) :
    observe r [(o, v)] [] s = (.ok (), s.add r v) := by
  have hh : Dict.has s.data r = false := (Dict.has_eq_false_iff _ _).2 hr
  have hg : observeGuard r (Dict.has s.data r) s.outputs [(o, v)] [] = .ok () := by
    rw [ho]; exact observeGuard_ok_iff.2 ⟨hh, rfl, _, rfl⟩
  have hf : firstOutput s.outputs = .ok o := by rw [ho]; rfl
  unfold observe
  simp only [Py.bind_apply, Py.get_apply, Py.lift_apply, hg, hf, getItem_single]
  cases v with
  | nan => rfl
  | num q =>
    have hq : q = 0 ∨ q = 1 := hv
    simp [hq, add, Py.bind_apply, Py.assert_apply]

theorem observe_cases {s : Bernoulli} {o : Var} (ho : s.outputs = [o]) (r : RowId)
    (obs inp : Dict Var Val) :
    (∃ e, observe r obs inp s = (.error e, s)) ∨
    (∃ v, obs = [(o, v)] ∧ inp = [] ∧ r ∉ Dict.keys s.data ∧ Legal v ∧
      observe r obs inp s = (.ok (), s.add r v)) := by
  rcases observeGuard_error_or (r := r) (held := Dict.has s.data r) (o := o) (obs := obs)
    (inp := inp) with ⟨e, he⟩ | ⟨hg, hh, rfl, v, rfl⟩
  · left
    rw [← ho] at he
    exact ⟨e, by unfold observe; simp [Py.bind_apply, he]⟩
  · have hr : r ∉ Dict.keys s.data := (Dict.has_eq_false_iff _ _).1 hh
    by_cases hv : Legal v
    · exact Or.inr ⟨v, rfl, rfl, hr, hv, observe_ok ho hr hv⟩
    · left
      have hf : firstOutput s.outputs = .ok o := by rw [ho]; rfl
      rw [← ho] at hg
      cases v with
      | nan => exact absurd trivial hv
      | num q =>
        have hq : ¬ (q = 0 ∨ q = 1) := hv
        refine ⟨.assertionError, ?_⟩
        unfold observe
        simp [Py.bind_apply, hg, hf, getItem_single, hq, Py.assert_apply]

theorem unobserve_absent {s : Bernoulli} {r : RowId} (hr : r ∉ Dict.keys s.data) :
    unobserve r s = (.error .valueError, s) := by
  have hh : Dict.has s.data r = false := (Dict.has_eq_false_iff _ _).2 hr
  unfold unobserve
  simp [Py.bind_apply, unobserveGuard, hh]

theorem unobserve_held {s : Bernoulli} {o : Var} (ho : s.outputs = [o]) {r : RowId}
    {v : Val} (hr : Dict.get? s.data r = some v) :
    unobserve r s = (.ok ([(o, v)], []), s.remove r v) := by
  have hh : Dict.has s.data r = true := by simp [Dict.has, hr]
  have hf : firstOutput s.outputs = .ok o := by rw [ho]; rfl
  unfold unobserve
  cases v <;>
  simp [Py.bind_apply, unobserveGuard, hh, Dict.getItem_ok hr, hf, remove]

theorem truncate_of_legal {q : ℚ} (h : q = 0 ∨ q = 1) : (truncate q : ℚ) = q := by
  rcases h with rfl | rfl
  · have := truncate_intCast 0; simp at this; simp [this]
  · have := truncate_intCast 1; simp at this; simp [this]

theorem data_add {s : Bernoulli} {r : RowId} {v : Val} (hv : Legal v) :
    (s.add r v).data = Dict.set s.data r v := by
  cases v with
  | nan => rfl
  | num q => simp [add, truncate_of_legal hv]

theorem data_remove (s : Bernoulli) (r : RowId) (v : Val) :
    (s.remove r v).data = Dict.del s.data r := by cases v <;> rfl

theorem truncate_eq_count {q : ℚ} (h : q = 0 ∨ q = 1) :
    truncate q = (([q] : List ℚ).count 1 : Int) := by
  rcases h with rfl | rfl
  · have := truncate_intCast 0; simp at this; simp [this]
  · have := truncate_intCast 1; simp at this; simp [this]

theorem inv_add {s : Bernoulli} (hI : s.Inv) {r : RowId} (hr : r ∉ Dict.keys s.data) {v : Val}
    (hv : Legal v) : (s.add r v).Inv := by
  have hdata := data_add (s := s) (r := r) hv
  have hvals : valuesOf (s.add r v).data = valuesOf s.data ++ [v] := by
    rw [hdata, valuesOf_set hr]
  refine ⟨?_, ?_, ?_, ?_, ?_⟩
  · cases v <;> exact hI.outputs
  · rw [hdata]; exact Dict.nodup_keys_set _ _ _ hI.nodup
  · rw [hvals, present_append]
    cases v with
    | nan => simp [add, hI.N]
    | num q => simp [add, hI.N]
  · rw [hvals, present_append, List.count_append]
    cases v with
    | nan => simp [add, hI.xSum]
    | num q => simp only [add, hI.xSum, truncate_eq_count hv, present_num]; push_cast; ring
  · rw [hvals]
    intro w hw
    rcases List.mem_append.1 hw with hw | hw
    · exact hI.legal w hw
    · rw [List.mem_singleton] at hw; exact hw ▸ hv

theorem inv_remove {s : Bernoulli} (hI : s.Inv) {r : RowId} {v : Val}
    (hr : Dict.get? s.data r = some v) : (s.remove r v).Inv := by
  have hperm := present_del hr
  have hv := hI.legal v (Categorical.mem_values_of_get? hr)
  refine ⟨?_, ?_, ?_, ?_, ?_⟩
  · cases v <;> exact hI.outputs
  · rw [data_remove]; exact Dict.nodup_keys_del _ _ hI.nodup
  · rw [data_remove]
    have hl := hperm.length_eq
    cases v with
    | nan => rw [present_cons_nan] at hl; simp [remove, hI.N, hl]
    | num q => rw [present_cons_num] at hl; simp [remove, hI.N, hl]
  · rw [data_remove]
    have hc := hperm.count_eq 1
    cases v with
    | nan => rw [present_cons_nan] at hc; simp [remove, hI.xSum, hc]
    | num q =>
      rw [present_cons_num, List.count_cons] at hc
      simp only [remove, hI.xSum, hc, truncate_eq_count hv, List.count_cons, List.count_nil]
      push_cast; ring
  · rw [data_remove]
    intro w hw
    exact hI.legal w ((Dict.perm_values_del _ _ _ hr).mem_iff.2 (List.mem_cons_of_mem _ hw))

theorem remove_add {s : Bernoulli} {r : RowId} (hr : r ∉ Dict.keys s.data) {v : Val} :
    (s.add r v).remove r v = s := by
  cases v <;> simp [add, remove, Dict.del_set_of_not_mem _ _ _ hr]

theorem setHypers_cases (s : Bernoulli) (h : Dict String ℝ) :
    (∃ e, setHypers h s = (.error e, s)) ∨
    (∃ a b, Dict.get? h "alpha" = some a ∧ Dict.get? h "beta" = some b ∧ 0 < a ∧ 0 < b ∧
      setHypers h s = (.ok (), { s with alpha := a, beta := b })) := by
  unfold setHypers
  cases ha : Dict.get? h "alpha" with
  | none => left; exact ⟨.keyError, by simp [Py.bind_apply, Dict.getItem, ha]⟩
  | some a =>
    by_cases hp : 0 < a
    · cases hb : Dict.get? h "beta" with
      | none =>
        left
        exact ⟨.keyError, by simp [Py.bind_apply, Dict.getItem, ha, Py.assert_apply, hp, hb]⟩
      | some b =>
        by_cases hq : 0 < b
        · right
          exact ⟨a, b, rfl, rfl, hp, hq,
            by simp [Py.bind_apply, Dict.getItem, ha, hb, Py.assert_apply, hp, hq]⟩
        · left
          exact ⟨.assertionError,
            by simp [Py.bind_apply, Dict.getItem, ha, hb, Py.assert_apply, hp, hq]⟩
    · left
      exact ⟨.assertionError, by simp [Py.bind_apply, Dict.getItem, ha, Py.assert_apply, hp]⟩

theorem inv_init (o : Var) (inputs : List Var) (hypers params : Dict String ℝ) :
    (init [o] inputs hypers params).Inv where
  outputs := ⟨o, rfl⟩
  nodup := by simp [init]
  N := by simp [init, valuesOf]
  xSum := by simp [init, valuesOf]
  legal := by simp [init, valuesOf]

end Bernoulli

/-! ## Normal -/
namespace Normal

def add (s : Normal) (r : RowId) : Val → Normal
  | .nan => { s with data := Dict.set s.data r .nan }
  | .num q =>
    { s with
      N := s.N + 1
      sumX := s.sumX + q
      sumXSq := s.sumXSq + q * q
      data := Dict.set s.data r (.num q) }

def remove (s : Normal) (r : RowId) : Val → Normal
  | .nan => { s with data := Dict.del s.data r }
  | .num q =>
    { s with
      data := Dict.del s.data r
      N := s.N - 1
      sumX := s.sumX - q
      sumXSq := s.sumXSq - q * q }

structure Inv (s : Normal) : Prop where
  outputs : ∃ o, s.outputs = [o]
  nodup : (Dict.keys s.data).Nodup
  N : s.N = (present (valuesOf s.data)).length
  sumX : s.sumX = (present (valuesOf s.data)).sum
  sumXSq : s.sumXSq = ((present (valuesOf s.data)).map fun q => q * q).sum
  rPos : 0 < s.r
  sPos : 0 < s.s
  nuPos : 0 < s.nu

theorem observe_ok {s : Normal} {o : Var} (ho : s.outputs = [o]) {r : RowId}
    (hr : r ∉ Dict.keys s.data) (v : Val) :
    observe r [(o, v)] [] s = (.ok (), s.add r v) := by
  have hh : Dict.has s.data r = false := (Dict.has_eq_false_iff _ _).2 hr
  have hg : observeGuard r (Dict.has s.data r) s.outputs [(o, v)] [] = .ok () := by
    rw [ho]; exact observeGuard_ok_iff.2 ⟨hh, rfl, _, rfl⟩
  have hf : firstOutput s.outputs = .ok o := by rw [ho]; rfl
  unfold observe
  cases v <;> simp [Py.bind_apply, hg, hf, getItem_single, add]

theorem observe_cases {s : Normal} {o : Var} (ho : s.outputs = [o]) (r : RowId)
    (obs inp : Dict Var Val) :
    (∃ e, observe r obs inp s = (.error e, s)) ∨
    (∃ v, obs = [(o, v)] ∧ inp = [] ∧ r ∉ Dict.keys s.data ∧
      observe r obs inp s = (.ok (), s.add r v)) := by
  rcases observeGuard_error_or (r := r) (held := Dict.has s.data r) (o := o) (obs := obs)
    (inp := inp) with ⟨e, he⟩ | ⟨hg, hh, rfl, v, rfl⟩
  · left
    rw [← ho] at he
    exact ⟨e, by unfold observe; simp [Py.bind_apply, he]⟩
  · have hr : r ∉ Dict.keys s.data := (Dict.has_eq_false_iff _ _).1 hh
    exact Or.inr ⟨v, rfl, rfl, hr, observe_ok ho hr v⟩

theorem unobserve_absent {s : Normal} {r : RowId} (hr : r ∉ Dict.keys s.data) :
    unobserve r s = (.error .valueError, s) := by
  have hh : Dict.has s.data r = false := (Dict.has_eq_false_iff _ _).2 hr
  unfold unobserve
  simp [Py.bind_apply, unobserveGuard, hh]

theorem unobserve_held {s : Normal} {o : Var} (ho : s.outputs = [o]) {r : RowId}
    {v : Val} (hr : Dict.get? s.data r = some v) :
    unobserve r s = (.ok ([(o, v)], []), s.remove r v) := by
  have hh : Dict.has s.data r = true := by simp [Dict.has, hr]
  have hf : firstOutput s.outputs = .ok o := by rw [ho]; rfl
  unfold unobserve
  cases v <;>
  simp [Py.bind_apply, unobserveGuard, hh, Dict.getItem_ok hr, hf, remove]

theorem data_add (s : Normal) (r : RowId) (v : Val) :
    (s.add r v).data = Dict.set s.data r v := by cases v <;> rfl

theorem data_remove (s : Normal) (r : RowId) (v : Val) :
    (s.remove r v).data = Dict.del s.data r := by cases v <;> rfl

theorem inv_add {s : Normal} (hI : s.Inv) {r : RowId} (hr : r ∉ Dict.keys s.data) (v : Val) :
    (s.add r v).Inv := by
  have hvals : valuesOf (s.add r v).data = valuesOf s.data ++ [v] := by
    rw [data_add, valuesOf_set hr]
  refine ⟨?_, ?_, ?_, ?_, ?_, ?_, ?_, ?_⟩
  · cases v <;> exact hI.outputs
  · rw [data_add]; exact Dict.nodup_keys_set _ _ _ hI.nodup
  · rw [hvals, present_append]
    cases v <;> simp [add, hI.N]
  · rw [hvals, present_append]
    cases v <;> simp [add, hI.sumX]
  · rw [hvals, present_append]
    cases v <;> simp [add, hI.sumXSq]
  · cases v <;> exact hI.rPos
  · cases v <;> exact hI.sPos
  · cases v <;> exact hI.nuPos

theorem inv_remove {s : Normal} (hI : s.Inv) {r : RowId} {v : Val}
    (hr : Dict.get? s.data r = some v) : (s.remove r v).Inv := by
  have hperm := present_del hr
  refine ⟨?_, ?_, ?_, ?_, ?_, ?_, ?_, ?_⟩
  · cases v <;> exact hI.outputs
  · rw [data_remove]; exact Dict.nodup_keys_del _ _ hI.nodup
  · rw [data_remove]
    have hl := hperm.length_eq
    cases v with
    | nan => rw [present_cons_nan] at hl; simp [remove, hI.N, hl]
    | num q => rw [present_cons_num] at hl; simp [remove, hI.N, hl]
  · rw [data_remove]
    have hl := hperm.sum_eq
    cases v with
    | nan => rw [present_cons_nan] at hl; simp [remove, hI.sumX, hl]
    | num q => rw [present_cons_num] at hl; simp [remove, hI.sumX, hl]
  · rw [data_remove]
    have hl := (hperm.map fun q => q * q).sum_eq
    cases v with
    | nan => rw [present_cons_nan] at hl; simp [remove, hI.sumXSq, hl]
    | num q => rw [present_cons_num] at hl; simp [remove, hI.sumXSq, hl]
  · cases v <;> exact hI.rPos
  · cases v <;> exact hI.sPos
  · cases v <;> exact hI.nuPos

theorem remove_add {s : Normal} {r : RowId} (hr : r ∉ Dict.keys s.data) (v : Val) :
    (s.add r v).remove r v = s := by
  cases v <;> simp [add, remove, Dict.del_set_of_not_mem _ _ _ hr]

theorem setHypers_cases (s : Normal) (h : Dict String ℝ) :
    (∃ e, setHypers h s = (.error e, s)) ∨
    (∃ m r s' nu, Dict.get? h "m" = some m ∧ Dict.get? h "r" = some r ∧
      Dict.get? h "s" = some s' ∧ Dict.get? h "nu" = some nu ∧ 0 < r ∧ 0 < s' ∧ 0 < nu ∧
      setHypers h s = (.ok (), { s with m := m, r := r, s := s', nu := nu })) := by
  unfold setHypers
  cases hr : Dict.get? h "r" with
  | none => left; exact ⟨.keyError, by simp [Py.bind_apply, Dict.getItem, hr]⟩
  | some r =>
  by_cases pr : 0 < r
  swap
  · left; exact ⟨.assertionError, by simp [Py.bind_apply, Dict.getItem, hr, Py.assert_apply, pr]⟩
  cases hs : Dict.get? h "s" with
  | none =>
    left; exact ⟨.keyError, by simp [Py.bind_apply, Dict.getItem, hr, Py.assert_apply, pr, hs]⟩
  | some s' =>
  by_cases ps : 0 < s'
  swap
  · left
    exact ⟨.assertionError,
      by simp [Py.bind_apply, Dict.getItem, hr, Py.assert_apply, pr, hs, ps]⟩
  cases hn : Dict.get? h "nu" with
  | none =>
    left
    exact ⟨.keyError, by simp [Py.bind_apply, Dict.getItem, hr, Py.assert_apply, pr, hs, ps, hn]⟩
  | some nu =>
  by_cases pn : 0 < nu
  swap
  · left
    exact ⟨.assertionError,
      by simp [Py.bind_apply, Dict.getItem, hr, Py.assert_apply, pr, hs, ps, hn, pn]⟩
  cases hm : Dict.get? h "m" with
  | none =>
    left
    exact ⟨.keyError,
      by simp [Py.bind_apply, Dict.getItem, hr, Py.assert_apply, pr, hs, ps, hn, pn, hm]⟩
  | some m =>
    right
    exact ⟨m, r, s', nu, rfl, rfl, rfl, rfl, pr, ps, pn,
      by simp [Py.bind_apply, Dict.getItem, hr, Py.assert_apply, pr, hs, ps, hn, pn, hm]⟩

theorem inv_init {o : Var} {inputs : List Var} {hypers params : Dict String ℝ} {s : Normal}
    (h : init [o] inputs hypers params = .ok s) : s.Inv := by
  unfold init at h
  simp only at h
  split at h
  · rename_i hp
    cases h
    exact ⟨⟨o, rfl⟩, by simp, by simp [valuesOf], by simp [valuesOf], by simp [valuesOf],
      hp.2.1, hp.1, hp.2.2⟩
  · cases h

end Normal

/-! ## NormalUC -/
namespace NormalUC

def add (s : NormalUC) (r : RowId) : Val → NormalUC
  | .nan => { s with data := Dict.set s.data r .nan }
  | .num q =>
    { s with
      N := s.N + 1
      sumX := s.sumX + q
      sumXSq := s.sumXSq + q * q
      data := Dict.set s.data r (.num q) }

def remove (s : NormalUC) (r : RowId) : Val → NormalUC
  | .nan => { s with data := Dict.del s.data r }
  | .num q =>
    { s with
      data := Dict.del s.data r
      N := s.N - 1
      sumX := s.sumX - q
      sumXSq := s.sumXSq - q * q }

structure Inv (s : NormalUC) : Prop where
  outputs : ∃ o, s.outputs = [o]
  nodup : (Dict.keys s.data).Nodup
  N : s.N = (present (valuesOf s.data)).length
  sumX : s.sumX = (present (valuesOf s.data)).sum
  sumXSq : s.sumXSq = ((present (valuesOf s.data)).map fun q => q * q).sum
  var : 0 < s.var

theorem observe_ok {s : NormalUC} {o : Var} (ho : s.outputs = [o]) {r : RowId}
    (hr : r ∉ Dict.keys s.data) (v : Val) :
    observe r [(o, v)] [] s = (.ok (), s.add r v) := by
  have hh : Dict.has s.data r = false := (Dict.has_eq_false_iff _ _).2 hr
  have hg : observeGuard r (Dict.has s.data r) s.outputs [(o, v)] [] = .ok () := by
    rw [ho]; exact observeGuard_ok_iff.2 ⟨hh, rfl, _, rfl⟩
  have hf : firstOutput s.outputs = .ok o := by rw [ho]; rfl
  unfold observe
  cases v <;> simp [Py.bind_apply, hg, hf, getItem_single, add]

theorem observe_cases {s : NormalUC} {o : Var} (ho : s.outputs = [o]) (r : RowId)
    (obs inp : Dict Var Val) :
    (∃ e, observe r obs inp s = (.error e, s)) ∨
    (∃ v, obs = [(o, v)] ∧ inp = [] ∧ r ∉ Dict.keys s.data ∧
      observe r obs inp s = (.ok (), s.add r v)) := by
  rcases observeGuard_error_or (r := r) (held := Dict.has s.data r) (o := o) (obs := obs)
    (inp := inp) with ⟨e, he⟩ | ⟨hg, hh, rfl, v, rfl⟩
  · left
    rw [← ho] at he
    exact ⟨e, by unfold observe; simp [Py.bind_apply, he]⟩
  · have hr : r ∉ Dict.keys s.data := (Dict.has_eq_false_iff _ _).1 hh
    exact Or.inr ⟨v, rfl, rfl, hr, observe_ok ho hr v⟩

theorem unobserve_absent {s : NormalUC} {r : RowId} (hr : r ∉ Dict.keys s.data) :
    unobserve r s = (.error .valueError, s) := by
  have hh : Dict.has s.data r = false := (Dict.has_eq_false_iff _ _).2 hr
  unfold unobserve
  simp [Py.bind_apply, unobserveGuard, hh]

theorem unobserve_held {s : NormalUC} {o : Var} (ho : s.outputs = [o]) {r : RowId}
    {v : Val} (hr : Dict.get? s.data r = some v) :
    unobserve r s = (.ok ([(o, v)], []), s.remove r v) := by
  have hh : Dict.has s.data r = true := by simp [Dict.has, hr]
  have hf : firstOutput s.outputs = .ok o := by rw [ho]; rfl
  unfold unobserve
  cases v <;>
  simp [Py.bind_apply, unobserveGuard, hh, Dict.getItem_ok hr, hf, remove]

theorem data_add (s : NormalUC) (r : RowId) (v : Val) :
    (s.add r v).data = Dict.set s.data r v := by cases v <;> rfl

theorem data_remove (s : NormalUC) (r : RowId) (v : Val) :
    (s.remove r v).data = Dict.del s.data r := by cases v <;> rfl

theorem inv_add {s : NormalUC} (hI : s.Inv) {r : RowId} (hr : r ∉ Dict.keys s.data) (v : Val) :
    (s.add r v).Inv := by
  have hvals : valuesOf (s.add r v).data = valuesOf s.data ++ [v] := by
    rw [data_add, valuesOf_set hr]
  refine ⟨?_, ?_, ?_, ?_, ?_, ?_⟩
  · cases v <;> exact hI.outputs
  · rw [data_add]; exact Dict.nodup_keys_set _ _ _ hI.nodup
  · rw [hvals, present_append]
    cases v <;> simp [add, hI.N]
  · rw [hvals, present_append]
    cases v <;> simp [add, hI.sumX]
  · rw [hvals, present_append]
    cases v <;> simp [add, hI.sumXSq]
  · cases v <;> exact hI.var

theorem inv_remove {s : NormalUC} (hI : s.Inv) {r : RowId} {v : Val}
    (hr : Dict.get? s.data r = some v) : (s.remove r v).Inv := by
  have hperm := present_del hr
  refine ⟨?_, ?_, ?_, ?_, ?_, ?_⟩
  · cases v <;> exact hI.outputs
  · rw [data_remove]; exact Dict.nodup_keys_del _ _ hI.nodup
  · rw [data_remove]
    have hl := hperm.length_eq
    cases v with
    | nan => rw [present_cons_nan] at hl; simp [remove, hI.N, hl]
    | num q => rw [present_cons_num] at hl; simp [remove, hI.N, hl]
  · rw [data_remove]
    have hl := hperm.sum_eq
    cases v with
    | nan => rw [present_cons_nan] at hl; simp [remove, hI.sumX, hl]
    | num q => rw [present_cons_num] at hl; simp [remove, hI.sumX, hl]
  · rw [data_remove]
    have hl := (hperm.map fun q => q * q).sum_eq
    cases v with
    | nan => rw [present_cons_nan] at hl; simp [remove, hI.sumXSq, hl]
    | num q => rw [present_cons_num] at hl; simp [remove, hI.sumXSq, hl]
  · cases v <;> exact hI.var

theorem remove_add {s : NormalUC} {r : RowId} (hr : r ∉ Dict.keys s.data) (v : Val) :
    (s.add r v).remove r v = s := by
  cases v <;> simp [add, remove, Dict.del_set_of_not_mem _ _ _ hr]

/-- The hyperparameter dict after a successful `set_hypers`. -/
def hypersAfter (old : Dict String ℝ) (m r s nu : ℝ) : Dict String ℝ :=
  Dict.set (Dict.set (Dict.set (Dict.set old "m" m) "r" r) "s" s) "nu" nu

theorem setHypers_cases (s : NormalUC) (h : Dict String ℝ) :
    (∃ e, setHypers h s = (.error e, s)) ∨
    (∃ m r s' nu, Dict.get? h "m" = some m ∧ Dict.get? h "r" = some r ∧
      Dict.get? h "s" = some s' ∧ Dict.get? h "nu" = some nu ∧ 0 < r ∧ 0 < s' ∧ 0 < nu ∧
      setHypers h s = (.ok (), { s with hypers := hypersAfter s.hypers m r s' nu })) := by
  unfold setHypers
  cases hr : Dict.get? h "r" with
  | none => left; exact ⟨.keyError, by simp [Py.bind_apply, Dict.getItem, hr]⟩
  | some r =>
  by_cases pr : 0 < r
  swap
  · left; exact ⟨.assertionError, by simp [Py.bind_apply, Dict.getItem, hr, Py.assert_apply, pr]⟩
  cases hs : Dict.get? h "s" with
  | none =>
    left; exact ⟨.keyError, by simp [Py.bind_apply, Dict.getItem, hr, Py.assert_apply, pr, hs]⟩
  | some s' =>
  by_cases ps : 0 < s'
  swap
  · left
    exact ⟨.assertionError,
      by simp [Py.bind_apply, Dict.getItem, hr, Py.assert_apply, pr, hs, ps]⟩
  cases hn : Dict.get? h "nu" with
  | none =>
    left
    exact ⟨.keyError, by simp [Py.bind_apply, Dict.getItem, hr, Py.assert_apply, pr, hs, ps, hn]⟩
  | some nu =>
  by_cases pn : 0 < nu
  swap
  · left
    exact ⟨.assertionError,
      by simp [Py.bind_apply, Dict.getItem, hr, Py.assert_apply, pr, hs, ps, hn, pn]⟩
  cases hm : Dict.get? h "m" with
  | none =>
    left
    exact ⟨.keyError,
      by simp [Py.bind_apply, Dict.getItem, hr, Py.assert_apply, pr, hs, ps, hn, pn, hm]⟩
  | some m =>
    right
    exact ⟨m, r, s', nu, rfl, rfl, rfl, rfl, pr, ps, pn,
      by simp [Py.bind_apply, Dict.getItem, hr, Py.assert_apply, pr, hs, ps, hn, pn, hm,
        hypersAfter]⟩

theorem setParams_cases (s : NormalUC) (h : Dict String ℝ) :
    (∃ e, setParams h s = (.error e, s)) ∨
    (∃ mu v, Dict.get? h "mu" = some mu ∧ Dict.get? h "var" = some v ∧ 0 < v ∧
      setParams h s = (.ok (), { s with mu := mu, var := v })) := by
  unfold setParams
  cases hv : Dict.get? h "var" with
  | none => left; exact ⟨.keyError, by simp [Py.bind_apply, Dict.getItem, hv]⟩
  | some v =>
  by_cases pv : 0 < v
  swap
  · left; exact ⟨.assertionError, by simp [Py.bind_apply, Dict.getItem, hv, Py.assert_apply, pv]⟩
  cases hm : Dict.get? h "mu" with
  | none =>
    left; exact ⟨.keyError, by simp [Py.bind_apply, Dict.getItem, hv, Py.assert_apply, pv, hm]⟩
  | some mu =>
    right
    exact ⟨mu, v, rfl, rfl, pv,
      by simp [Py.bind_apply, Dict.getItem, hv, Py.assert_apply, pv, hm]⟩

theorem inv_init {o : Var} {inputs : List Var} {hypers params : Dict String ℝ} {s : NormalUC}
    (h : init [o] inputs hypers params = .ok s) : s.Inv := by
  unfold init at h
  simp only at h
  split at h
  · rename_i hp
    cases h
    exact ⟨⟨o, rfl⟩, by simp, by simp [valuesOf], by simp [valuesOf], by simp [valuesOf], hp⟩
  · cases h

end NormalUC

/-! ## Poisson -/
namespace Poisson

noncomputable def add (s : Poisson) (r : RowId) : Val → Poisson
  | .nan => { s with data := Dict.set s.data r .nan }
  | .num q =>
    { s with
      N := s.N + 1
      sumX := s.sumX + q
      sumLogFactX := s.sumLogFactX + gammaln ((q : ℝ) + 1)
      data := Dict.set s.data r (.num q) }

noncomputable def remove (s : Poisson) (r : RowId) : Val → Poisson
  | .nan => { s with data := Dict.del s.data r }
  | .num q =>
    { s with
      data := Dict.del s.data r
      N := s.N - 1
      sumX := s.sumX - q
      sumLogFactX := s.sumLogFactX - gammaln ((q : ℝ) + 1) }

def Legal : Val → Prop
  | .nan => True
  | .num q => ∃ i : Nat, q = i

theorem valid_iff {q : ℚ} : valid q = true ↔ ∃ i : Nat, q = i := by
  unfold valid
  simp only [Bool.and_eq_true, decide_eq_true_eq]
  constructor
  · rintro ⟨hw, h0⟩
    rw [isWhole_iff] at hw
    have h0' : 0 ≤ truncate q := by
      rw [← hw] at h0; exact_mod_cast h0
    refine ⟨(truncate q).toNat, ?_⟩
    rw [← hw, truncate_intCast]
    have : (truncate q : ℚ) = (((truncate q).toNat : Int) : ℚ) := by
      rw [Int.toNat_of_nonneg h0']
    rw [this]; norm_cast
  · rintro ⟨i, rfl⟩
    refine ⟨?_, ?_⟩
    · have := isWhole_intCast (i : Int); simpa using this
    · exact_mod_cast Nat.zero_le i

structure Inv (s : Poisson) : Prop where
  outputs : ∃ o, s.outputs = [o]
  nodup : (Dict.keys s.data).Nodup
  N : s.N = (present (valuesOf s.data)).length
  sumX : s.sumX = (present (valuesOf s.data)).sum
  sumLogFactX : s.sumLogFactX =
    ((present (valuesOf s.data)).map fun q : ℚ => gammaln ((q : ℝ) + 1)).sum
  legal : ∀ v ∈ valuesOf s.data, Legal v
  a : 0 < s.a
  b : 0 < s.b

theorem observe_ok {s : Poisson} {o : Var} (ho : s.outputs = [o]) {r : RowId}
    (hr : r ∉ Dict.keys s.data) {v : Val} (hv : Legal v) :
    observe r [(o, v)] [] s = (.ok (), s.add r v) := by
  have hh : Dict.has s.data r = false := (Dict.has_eq_false_iff _ _).2 hr
  have hg : observeGuard r (Dict.has s.data r) s.outputs [(o, v)] [] = .ok () := by
    rw [ho]; exact observeGuard_ok_iff.2 ⟨hh, rfl, _, rfl⟩
  have hf : firstOutput s.outputs = .ok o := by rw [ho]; rfl
  unfold observe
  simp only [Py.bind_apply, Py.get_apply, Py.lift_apply, hg, hf, getItem_single]
  cases v with
  | nan => rfl
  | num q =>
    have hq : valid q = true := valid_iff.2 hv
    simp [hq, add, Py.bind_apply]

theorem observe_cases {s : Poisson} {o : Var} (ho : s.outputs = [o]) (r : RowId)
    (obs inp : Dict Var Val) :
    (∃ e, observe r obs inp s = (.error e, s)) ∨
    (∃ v, obs = [(o, v)] ∧ inp = [] ∧ r ∉ Dict.keys s.data ∧ Legal v ∧
      observe r obs inp s = (.ok (), s.add r v)) := by
  rcases observeGuard_error_or (r := r) (held := Dict.has s.data r) (o := o) (obs := obs)
    (inp := inp) with ⟨e, he⟩ | ⟨hg, hh, rfl, v, rfl⟩
  · left
    rw [← ho] at he
    exact ⟨e, by unfold observe; simp [Py.bind_apply, he]⟩
  · have hr : r ∉ Dict.keys s.data := (Dict.has_eq_false_iff _ _).1 hh
    by_cases hv : Legal v
    · exact Or.inr ⟨v, rfl, rfl, hr, hv, observe_ok ho hr hv⟩
    · left
      have hf : firstOutput s.outputs = .ok o := by rw [ho]; rfl
      rw [← ho] at hg
      cases v with
      | nan => exact absurd trivial hv
      | num q =>
        have hq : valid q = false := by
          rw [← Bool.not_eq_true]; exact fun h => hv (valid_iff.1 h)
        refine ⟨.valueError, ?_⟩
        unfold observe
        simp [Py.bind_apply, hg, hf, getItem_single, hq]

theorem unobserve_absent {s : Poisson} {r : RowId} (hr : r ∉ Dict.keys s.data) :
    unobserve r s = (.error .valueError, s) := by
  have hh : Dict.has s.data r = false := (Dict.has_eq_false_iff _ _).2 hr
  unfold unobserve
  simp [Py.bind_apply, unobserveGuard, hh]

theorem unobserve_held {s : Poisson} {o : Var} (ho : s.outputs = [o]) {r : RowId}
    {v : Val} (hr : Dict.get? s.data r = some v) :
    unobserve r s = (.ok ([(o, v)], []), s.remove r v) := by
  have hh : Dict.has s.data r = true := by simp [Dict.has, hr]
  have hf : firstOutput s.outputs = .ok o := by rw [ho]; rfl
  unfold unobserve
  cases v <;>
  simp [Py.bind_apply, unobserveGuard, hh, Dict.getItem_ok hr, hf, remove]

theorem data_add (s : Poisson) (r : RowId) (v : Val) :
    (s.add r v).data = Dict.set s.data r v := by cases v <;> rfl

theorem data_remove (s : Poisson) (r : RowId) (v : Val) :
    (s.remove r v).data = Dict.del s.data r := by cases v <;> rfl

theorem inv_add {s : Poisson} (hI : s.Inv) {r : RowId} (hr : r ∉ Dict.keys s.data) {v : Val}
    (hv : Legal v) : (s.add r v).Inv := by
  have hvals : valuesOf (s.add r v).data = valuesOf s.data ++ [v] := by
    rw [data_add, valuesOf_set hr]
  refine ⟨?_, ?_, ?_, ?_, ?_, ?_, ?_, ?_⟩
  · cases v <;> exact hI.outputs
  · rw [data_add]; exact Dict.nodup_keys_set _ _ _ hI.nodup
  · rw [hvals, present_append]
    cases v <;> simp [add, hI.N]
  · rw [hvals, present_append]
    cases v <;> simp [add, hI.sumX]
  · rw [hvals, present_append]
    cases v <;> simp [add, hI.sumLogFactX]
  · rw [hvals]
    intro w hw
    rcases List.mem_append.1 hw with hw | hw
    · exact hI.legal w hw
    · rw [List.mem_singleton] at hw; exact hw ▸ hv
  · cases v <;> exact hI.a
  · cases v <;> exact hI.b

theorem inv_remove {s : Poisson} (hI : s.Inv) {r : RowId} {v : Val}
    (hr : Dict.get? s.data r = some v) : (s.remove r v).Inv := by
  have hperm := present_del hr
  refine ⟨?_, ?_, ?_, ?_, ?_, ?_, ?_, ?_⟩
  · cases v <;> exact hI.outputs
  · rw [data_remove]; exact Dict.nodup_keys_del _ _ hI.nodup
  · rw [data_remove]
    have hl := hperm.length_eq
    cases v with
    | nan => rw [present_cons_nan] at hl; simp [remove, hI.N, hl]
    | num q => rw [present_cons_num] at hl; simp [remove, hI.N, hl]
  · rw [data_remove]
    have hl := hperm.sum_eq
    cases v with
    | nan => rw [present_cons_nan] at hl; simp [remove, hI.sumX, hl]
    | num q => rw [present_cons_num] at hl; simp [remove, hI.sumX, hl]
  · rw [data_remove]
    have hl := (hperm.map fun q : ℚ => gammaln ((q : ℝ) + 1)).sum_eq
    cases v with
    | nan => rw [present_cons_nan] at hl; simp [remove, hI.sumLogFactX, hl]
    | num q => rw [present_cons_num] at hl; simp [remove, hI.sumLogFactX, hl]
  · rw [data_remove]
    intro w hw
    exact hI.legal w ((Dict.perm_values_del _ _ _ hr).mem_iff.2 (List.mem_cons_of_mem _ hw))
  · cases v <;> exact hI.a
  · cases v <;> exact hI.b

theorem remove_add {s : Poisson} {r : RowId} (hr : r ∉ Dict.keys s.data) (v : Val) :
    (s.add r v).remove r v = s := by
  cases v <;> simp [add, remove, Dict.del_set_of_not_mem _ _ _ hr]

theorem setHypers_cases (s : Poisson) (h : Dict String ℝ) :
    (∃ e, setHypers h s = (.error e, s)) ∨
    (∃ a b, Dict.get? h "a" = some a ∧ Dict.get? h "b" = some b ∧ 0 < a ∧ 0 < b ∧
      setHypers h s = (.ok (), { s with a := a, b := b })) := by
  unfold setHypers
  cases ha : Dict.get? h "a" with
  | none => left; exact ⟨.keyError, by simp [Py.bind_apply, Dict.getItem, ha]⟩
  | some a =>
    by_cases hp : 0 < a
    · cases hb : Dict.get? h "b" with
      | none =>
        left
        exact ⟨.keyError, by simp [Py.bind_apply, Dict.getItem, ha, Py.assert_apply, hp, hb]⟩
      | some b =>
        by_cases hq : 0 < b
        · right
          exact ⟨a, b, rfl, rfl, hp, hq,
            by simp [Py.bind_apply, Dict.getItem, ha, hb, Py.assert_apply, hp, hq]⟩
        · left
          exact ⟨.assertionError,
            by simp [Py.bind_apply, Dict.getItem, ha, hb, Py.assert_apply, hp, hq]⟩
    · left
      exact ⟨.assertionError, by simp [Py.bind_apply, Dict.getItem, ha, Py.assert_apply, hp]⟩

theorem inv_init {o : Var} {inputs : List Var} {hypers params : Dict String ℝ} {s : Poisson}
    (h : init [o] inputs hypers params = .ok s) : s.Inv := by
  unfold init at h
  simp only at h
  split at h
  · rename_i hp
    cases h
    exact ⟨⟨o, rfl⟩, by simp, by simp [valuesOf], by simp [valuesOf], by simp [valuesOf],
      by simp [valuesOf], hp.1, hp.2⟩
  · cases h

end Poisson
end Cgpm2
