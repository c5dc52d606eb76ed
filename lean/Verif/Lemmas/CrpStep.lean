import Mathlib.Tactic.Ring
import Mathlib.Tactic.Linarith
import Verif.Lemmas.Dict
import Verif.Model.Crp

/-!
# CRP: closed forms of observe and unobserve, and the representation invariant (helpers)
-/

namespace Cgpm2

theorem keys_eq_singleton {V : Type} {obs : Dict Var V} {o : Var} (h : Dict.keys obs = [o]) :
    ∃ v, obs = [(o, v)] := by
  match obs, h with
  | [(k, v)], h => simp [Dict.keys] at h; exact ⟨v, by rw [h]⟩

theorem observeGuard_ok_iff {r : RowId} {held : Bool} {o : Var} {obs inp : Dict Var Val} {u : Unit} :
    observeGuard r held [o] obs inp = .ok u ↔ held = false ∧ inp = [] ∧ ∃ v, obs = [(o, v)] := by
  unfold observeGuard
  cases held
  · by_cases h1 : inp = []
    · by_cases h2 : Dict.keys obs = [o]
      · simp [h1, h2, keys_eq_singleton h2]
      · simp only [h1, h2, ne_eq, not_true_eq_false, not_false_eq_true, if_true, if_false]
        constructor
        · intro h; simp at h
        · rintro ⟨_, _, v, rfl⟩; simp [Dict.keys] at h2
    · simp [h1]
  · simp

theorem observeGuard_error_or {r : RowId} {held : Bool} {o : Var} {obs inp : Dict Var Val} :
    (∃ e, observeGuard r held [o] obs inp = .error e) ∨
    (observeGuard r held [o] obs inp = .ok () ∧ held = false ∧ inp = [] ∧ ∃ v, obs = [(o, v)]) := by
  cases h : observeGuard r held [o] obs inp with
  | error e => exact Or.inl ⟨e, rfl⟩
  | ok u => exact Or.inr ⟨rfl, observeGuard_ok_iff.1 h⟩

theorem truncate_intCast (x : Int) : truncate (x : ℚ) = x := by
  simp [truncate]

namespace Crp

/-- The state after a successful `observe`. -/
def add (s : Crp) (r : RowId) (x : Int) : Crp :=
  { s with
    N := s.N + 1
    counts := Dict.set s.counts x ((Dict.get? s.counts x).getD 0 + 1)
    data := Dict.set s.data r x }

/-- The state after a successful `unobserve` of a row holding `x`. -/
def remove (s : Crp) (r : RowId) (x : Int) : Crp :=
  let c := (Dict.get? s.counts x).getD 0
  { s with
    data := Dict.del s.data r
    N := s.N - 1
    counts := if c - 1 = 0 then Dict.del s.counts x else Dict.set s.counts x (c - 1) }

/-- Number of held rows at table `t`. -/
def seated (s : Crp) (t : Int) : Nat := (Dict.values s.data).count t

/-- Representation invariant. -/
structure Inv (s : Crp) : Prop where
  outputs : ∃ o, s.outputs = [o]
  nodup : (Dict.keys s.data).Nodup
  nodupC : (Dict.keys s.counts).Nodup
  N : s.N = s.data.length
  counts : ∀ t, Dict.get? s.counts t = if s.seated t = 0 then none else some (s.seated t : Int)
  nonneg : ∀ t ∈ Dict.values s.data, 0 ≤ t

theorem observe_ok {s : Crp} {o : Var} (ho : s.outputs = [o]) {r : RowId}
    (hr : r ∉ Dict.keys s.data) {q : ℚ} (hx : truncate q ∈ s.support) :
    observe r [(o, .num q)] [] s = (.ok (), s.add r (truncate q)) := by
  have hh : Dict.has s.data r = false := (Dict.has_eq_false_iff _ _).2 hr
  have hg : observeGuard r (Dict.has s.data r) s.outputs [(o, .num q)] [] = .ok () := by
    rw [ho]; exact observeGuard_ok_iff.2 ⟨hh, rfl, _, rfl⟩
  have hf : firstOutput s.outputs = .ok o := by rw [ho]; rfl
  have hx' : decide (truncate q ∈ s.support) = true := by simpa using hx
  have hget : Dict.getItem ([(o, Val.num q)] : Dict Var Val) o = .ok (.num q) := by
    simp [Dict.getItem, Dict.get?]
  unfold observe
  simp only [Py.bind_apply, Py.get_apply, Py.lift_apply, hg, hf, hget, pyInt, Py.assert_apply,
    hx, if_true, Py.modify_apply]
  cases hc : Dict.get? s.counts (truncate q) with
  | none =>
    have hhas : Dict.has s.counts (truncate q) = false := by simp [Dict.has, hc]
    simp [hhas, Dict.getItem, Dict.get?_set, add, hc, Dict.set_set]
  | some c =>
    have hhas : Dict.has s.counts (truncate q) = true := by simp [Dict.has, hc]
    simp [hhas, Dict.getItem, hc, add]

theorem observe_cases {s : Crp} {o : Var} (ho : s.outputs = [o]) (r : RowId)
    (obs inp : Dict Var Val) :
    (∃ e, observe r obs inp s = (.error e, s)) ∨
    (∃ q, obs = [(o, .num q)] ∧ inp = [] ∧ r ∉ Dict.keys s.data ∧ truncate q ∈ s.support ∧
      observe r obs inp s = (.ok (), s.add r (truncate q))) := by
  rcases observeGuard_error_or (r := r) (held := Dict.has s.data r) (o := o) (obs := obs)
    (inp := inp) with ⟨e, he⟩ | ⟨hg, hh, rfl, v, rfl⟩
  · left
    refine ⟨e, ?_⟩
    unfold observe
    rw [← ho] at he
    simp [Py.bind_apply, he]
  · have hr : r ∉ Dict.keys s.data := (Dict.has_eq_false_iff _ _).1 hh
    have hf : firstOutput s.outputs = .ok o := by rw [ho]; rfl
    rw [← ho] at hg
    cases v with
    | nan =>
      left
      refine ⟨.valueError, ?_⟩
      have hget : Dict.getItem ([(o, Val.nan)] : Dict Var Val) o = .ok .nan := by
        simp [Dict.getItem, Dict.get?]
      unfold observe
      simp [Py.bind_apply, hg, hf, hget, pyInt]
    | num q =>
      by_cases hx : truncate q ∈ s.support
      · exact Or.inr ⟨q, rfl, rfl, hr, hx, observe_ok ho hr hx⟩
      · left
        refine ⟨.assertionError, ?_⟩
        have hget : Dict.getItem ([(o, Val.num q)] : Dict Var Val) o = .ok (.num q) := by
          simp [Dict.getItem, Dict.get?]
        unfold observe
        simp [Py.bind_apply, hg, hf, hget, pyInt, Py.assert_apply, hx]

theorem unobserve_absent {s : Crp} {r : RowId} (hr : r ∉ Dict.keys s.data) :
    unobserve r s = (.error .valueError, s) := by
  have hh : Dict.has s.data r = false := (Dict.has_eq_false_iff _ _).2 hr
  unfold unobserve
  simp [Py.bind_apply, unobserveGuard, hh]

theorem seated_pos {s : Crp} {r : RowId} {x : Int} (hr : Dict.get? s.data r = some x) :
    0 < s.seated x := by
  refine List.count_pos_iff.2 ?_
  exact List.mem_map.2 ⟨(r, x), Dict.mem_of_get? hr, rfl⟩

theorem unobserve_held {s : Crp} (hI : s.Inv) {o : Var} (ho : s.outputs = [o]) {r : RowId}
    {x : Int} (hr : Dict.get? s.data r = some x) :
    unobserve r s = (.ok ([(o, .num (x : ℚ))], []), s.remove r x) := by
  have hh : Dict.has s.data r = true := by simp [Dict.has, hr]
  have hf : firstOutput s.outputs = .ok o := by rw [ho]; rfl
  have hc : Dict.get? s.counts x = some (s.seated x : Int) := by
    rw [hI.counts, if_neg (Nat.pos_iff_ne_zero.1 (seated_pos hr))]
  unfold unobserve
  simp only [Py.bind_apply, Py.get_apply, Py.lift_apply, unobserveGuard, hh, if_true,
    Dict.getItem_ok hr, Py.modify_apply, Dict.getItem_ok hc, hf, Py.pure_apply]
  by_cases h1 : (s.seated x : Int) - 1 = 0
  · have : Dict.del (Dict.set s.counts x ((s.seated x : Int) - 1)) x = Dict.del s.counts x := by
      have hm : x ∈ Dict.keys s.counts := Dict.mem_keys_of_get? hc
      clear h1
      generalize (s.seated x : Int) - 1 = c
      have nd := hI.nodupC
      revert hm
      induction s.counts with
      | nil => simp
      | cons kv d ih =>
        obtain ⟨a, b⟩ := kv
        intro hm
        by_cases ha : a = x
        · simp [Dict.set, Dict.del, ha]
        · have : x ∈ Dict.keys d := by
            rcases List.mem_cons.1 hm with h | h
            · exact absurd h.symm ha
            · exact h
          simp [Dict.set, Dict.del, ha, ih this]
    simp [remove, hc, h1, ← this]
  · simp [remove, hc, h1]

theorem values_add {s : Crp} {r : RowId} (hr : r ∉ Dict.keys s.data) (x : Int) :
    Dict.values (s.add r x).data = Dict.values s.data ++ [x] := by
  simp [add, Dict.set_of_not_mem _ _ _ hr, Dict.values_append]

theorem seated_add {s : Crp} {r : RowId} (hr : r ∉ Dict.keys s.data) (x t : Int) :
    (s.add r x).seated t = s.seated t + if x = t then 1 else 0 := by
  unfold seated
  rw [values_add hr, List.count_append]
  by_cases h : x = t <;> simp [h]

theorem mem_pySorted (l : List Int) (x : Int) : x ∈ pySorted l ↔ x ∈ l := by
  simp [pySorted]

theorem le_foldl_max (k : Int) (ks : List Int) : k ≤ pyMax k ks ∧ ∀ x ∈ ks, x ≤ pyMax k ks := by
  unfold pyMax
  induction ks generalizing k with
  | nil => simp
  | cons a ks ih =>
    simp only [List.foldl_cons, List.mem_cons, forall_eq_or_imp]
    have := ih (max k a)
    exact ⟨le_trans (le_max_left _ _) this.1, le_trans (le_max_right _ _) this.1, this.2⟩

theorem pyMax_mem (k : Int) (ks : List Int) : pyMax k ks ∈ k :: ks := by
  unfold pyMax
  induction ks generalizing k with
  | nil => simp
  | cons a ks ih =>
    simp only [List.foldl_cons]
    rcases List.mem_cons.1 (ih (max k a)) with h | h
    · rw [h]
      rcases max_choice k a with h' | h' <;> rw [h'] <;> simp
    · simp [h]

theorem mem_support_nonneg {s : Crp} (hI : s.Inv) {x : Int} (hx : x ∈ s.support) : 0 ≤ x := by
  have key : ∀ t ∈ Dict.keys s.counts, 0 ≤ t := by
    intro t ht
    obtain ⟨c, hc⟩ := Dict.exists_get?_of_mem_keys ht
    rw [hI.counts] at hc
    by_cases h0 : s.seated t = 0
    · simp [h0] at hc
    · have : t ∈ Dict.values s.data := List.count_pos_iff.1 (Nat.pos_of_ne_zero h0)
      exact hI.nonneg t this
  unfold support at hx
  cases hs : pySorted (Dict.keys s.counts) with
  | nil => simp [hs] at hx; omega
  | cons k ks =>
    have hm : ∀ y ∈ k :: ks, 0 ≤ y := by
      intro y hy
      rw [← hs, mem_pySorted] at hy
      exact key y hy
    simp only [hs, List.mem_append, List.mem_singleton] at hx
    rcases hx with hx | hx
    · exact hm _ hx
    · have := hm _ (pyMax_mem k ks); omega

theorem inv_add {s : Crp} (hI : s.Inv) {r : RowId} (hr : r ∉ Dict.keys s.data) {x : Int}
    (hx : 0 ≤ x) : (s.add r x).Inv where
  outputs := hI.outputs
  nodup := Dict.nodup_keys_set _ _ _ hI.nodup
  nodupC := Dict.nodup_keys_set _ _ _ hI.nodupC
  N := by
    simp [add, hI.N, Dict.set_of_not_mem _ _ _ hr]
  counts := by
    intro t
    rw [seated_add hr]
    show Dict.get? (Dict.set s.counts x _) t = _
    rw [Dict.get?_set, hI.counts x, hI.counts t]
    by_cases h : x = t
    · subst h
      by_cases h0 : s.seated x = 0 <;> simp [h0]
    · simp [h]
  nonneg := by
    intro t ht
    rw [values_add hr, List.mem_append, List.mem_singleton] at ht
    rcases ht with ht | rfl
    · exact hI.nonneg t ht
    · exact hx

theorem seated_remove {s : Crp} {r : RowId} {x : Int} (hr : Dict.get? s.data r = some x) (t : Int) :
    s.seated t = (s.remove r x).seated t + if x = t then 1 else 0 := by
  unfold seated
  rw [(Dict.perm_values_del _ _ _ hr).count_eq, List.count_cons]
  simp [remove]

theorem inv_remove {s : Crp} (hI : s.Inv) {r : RowId} {x : Int}
    (hr : Dict.get? s.data r = some x) : (s.remove r x).Inv where
  outputs := hI.outputs
  nodup := Dict.nodup_keys_del _ _ hI.nodup
  nodupC := by
    simp only [remove]
    split
    · exact Dict.nodup_keys_del _ _ hI.nodupC
    · exact Dict.nodup_keys_set _ _ _ hI.nodupC
  N := by
    have := (Dict.perm_cons_del _ _ _ hr).length_eq
    simp only [List.length_cons] at this
    simp only [remove]
    rw [hI.N, this]; push_cast; ring
  counts := by
    intro t
    have hs := seated_remove hr t
    have hc : Dict.get? s.counts x = some (s.seated x : Int) := by
      rw [hI.counts, if_neg (Nat.pos_iff_ne_zero.1 (seated_pos hr))]
    have hsx := seated_remove hr x
    simp only [if_true] at hsx
    have hcounts : (s.remove r x).counts = if (s.seated x : Int) - 1 = 0
        then Dict.del s.counts x else Dict.set s.counts x ((s.seated x : Int) - 1) := by
      simp [remove, hc]
    rw [hcounts]
    by_cases h1 : (s.seated x : Int) - 1 = 0
    · rw [if_pos h1, Dict.get?_del _ hI.nodupC]
      by_cases h : x = t
      · subst h
        have : (s.remove r x).seated x = 0 := by omega
        simp [this]
      · rw [if_neg h, hI.counts]
        simp only [h, if_false, Nat.add_zero] at hs
        rw [hs]
    · rw [if_neg h1, Dict.get?_set]
      by_cases h : x = t
      · subst h
        have h2 : (s.remove r x).seated x ≠ 0 := by omega
        have h3 : (s.seated x : Int) - 1 = ((s.remove r x).seated x : Int) := by omega
        simp [h2, h3]
      · rw [if_neg h, hI.counts]
        simp only [h, if_false, Nat.add_zero] at hs
        rw [hs]
  nonneg := by
    intro t ht
    refine hI.nonneg t ?_
    exact (Dict.perm_values_del _ _ _ hr).mem_iff.2 (List.mem_cons_of_mem _ ht)

/-- Removing the row just added gives back the very same object. -/
theorem remove_add {s : Crp} (hI : s.Inv) {r : RowId} (hr : r ∉ Dict.keys s.data) (x : Int) :
    (s.add r x).remove r x = s := by
  have hget : Dict.get? (s.add r x).counts x = some ((Dict.get? s.counts x).getD 0 + 1) := by
    simp [add, Dict.get?_set]
  have hd : Dict.del (s.add r x).data r = s.data := Dict.del_set_of_not_mem _ _ _ hr
  have hcnt : (if ((Dict.get? (s.add r x).counts x).getD 0) - 1 = 0
      then Dict.del (s.add r x).counts x
      else Dict.set (s.add r x).counts x (((Dict.get? (s.add r x).counts x).getD 0) - 1)) =
      s.counts := by
    rw [hget]
    simp only [Option.getD_some, add_sub_cancel_right]
    cases hc : Dict.get? s.counts x with
    | none =>
      simp only [Option.getD_none, if_true]
      exact Dict.del_set_of_not_mem _ _ _ ((Dict.get?_eq_none_iff _ _).1 hc)
    | some c =>
      have hcc := hI.counts x
      rw [hc] at hcc
      have : c ≠ 0 := by
        by_cases h0 : s.seated x = 0
        · simp [h0] at hcc
        · simp [h0] at hcc; omega
      simp only [Option.getD_some, if_neg this]
      show Dict.set (Dict.set s.counts x _) x c = s.counts
      rw [Dict.set_set, Dict.set_get _ _ _ hc]
  unfold remove
  simp only [hcnt, hd]
  simp [add]

theorem setHypers_cases (s : Crp) (h : Dict String ℝ) :
    (∃ e, setHypers h s = (.error e, s)) ∨
    (∃ a, Dict.get? h "alpha" = some a ∧ 0 < a ∧ setHypers h s = (.ok (), { s with alpha := a })) := by
  unfold setHypers
  cases ha : Dict.get? h "alpha" with
  | none => left; exact ⟨.keyError, by simp [Py.bind_apply, Dict.getItem, ha]⟩
  | some a =>
    by_cases hp : 0 < a
    · right; exact ⟨a, rfl, hp, by simp [Py.bind_apply, Dict.getItem, ha, Py.assert_apply, hp]⟩
    · left
      exact ⟨.assertionError, by simp [Py.bind_apply, Dict.getItem, ha, Py.assert_apply, hp]⟩

theorem inv_init (o : Var) (inputs : List Var) (hypers params : Dict String ℝ) :
    (init [o] inputs hypers params).Inv where
  outputs := ⟨o, rfl⟩
  nodup := by simp [init]
  nodupC := by simp [init]
  N := by simp [init]
  counts := by intro t; simp [init, seated]
  nonneg := by simp [init]

end Crp
end Cgpm2
