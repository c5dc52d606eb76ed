import Mathlib.Data.List.Nodup
import Mathlib.Data.List.Perm.Basic
import Verif.Py.Base

/-!
# Lemmas about dictionaries (helpers; no property of the repository is stated here)
-/

set_option linter.unusedSectionVars false

namespace Cgpm2
namespace Dict
variable {K V : Type} [DecidableEq K]

@[simp] theorem get?_nil (k : K) : get? ([] : Dict K V) k = none := rfl

theorem get?_cons (k' k : K) (v : V) (d : Dict K V) :
    get? ((k', v) :: d) k = if k' = k then some v else get? d k := rfl

@[simp] theorem keys_nil : keys ([] : Dict K V) = [] := rfl
@[simp] theorem keys_cons (kv : K × V) (d : Dict K V) : keys (kv :: d) = kv.1 :: keys d := rfl
@[simp] theorem values_nil : values ([] : Dict K V) = [] := rfl
@[simp] theorem values_cons (kv : K × V) (d : Dict K V) :
    values (kv :: d) = kv.2 :: values d := rfl

theorem get?_eq_none_iff (d : Dict K V) (k : K) : get? d k = none ↔ k ∉ keys d := by
  induction d with
  | nil => simp
  | cons kv d ih =>
    obtain ⟨k', v⟩ := kv
    by_cases h : k' = k
    · simp [get?_cons, h]
    · simp [get?_cons, h, ih, Ne.symm h]

theorem has_iff (d : Dict K V) (k : K) : has d k = true ↔ k ∈ keys d := by
  unfold has
  rw [Option.isSome_iff_ne_none, ne_eq, get?_eq_none_iff, not_not]

theorem has_eq_false_iff (d : Dict K V) (k : K) : has d k = false ↔ k ∉ keys d := by
  rw [← has_iff]; simp

theorem mem_of_get? {d : Dict K V} {k : K} {v : V} (h : get? d k = some v) : (k, v) ∈ d := by
  induction d with
  | nil => simp at h
  | cons kv d ih =>
    obtain ⟨k', v'⟩ := kv
    by_cases hk : k' = k
    · simp [get?_cons, hk] at h; simp [hk, h]
    · simp [get?_cons, hk] at h; exact List.mem_cons_of_mem _ (ih h)

theorem get?_of_mem {d : Dict K V} (nd : (keys d).Nodup) {k : K} {v : V} (h : (k, v) ∈ d) :
    get? d k = some v := by
  induction d with
  | nil => simp at h
  | cons kv d ih =>
    obtain ⟨k', v'⟩ := kv
    simp only [keys_cons, List.nodup_cons] at nd
    rcases List.mem_cons.1 h with h | h
    · cases h; simp [get?_cons]
    · have : k' ≠ k := by
        rintro rfl
        exact nd.1 (List.mem_map.2 ⟨(k', v), h, rfl⟩)
      simp [get?_cons, this, ih nd.2 h]

theorem mem_iff_get? {d : Dict K V} (nd : (keys d).Nodup) {k : K} {v : V} :
    (k, v) ∈ d ↔ get? d k = some v := ⟨get?_of_mem nd, mem_of_get?⟩

theorem get?_set (d : Dict K V) (k k' : K) (v : V) :
    get? (set d k v) k' = if k = k' then some v else get? d k' := by
  induction d with
  | nil => simp [set, get?_cons]
  | cons kv d ih =>
    obtain ⟨a, b⟩ := kv
    by_cases h : a = k
    · subst h
      by_cases h' : a = k' <;> simp [set, get?_cons, h']
    · by_cases h' : a = k'
      · subst h'; simp [set, get?_cons, h, Ne.symm h]
      · simp [set, get?_cons, h, h', ih]

theorem set_of_not_mem (d : Dict K V) (k : K) (v : V) (h : k ∉ keys d) :
    set d k v = d ++ [(k, v)] := by
  induction d with
  | nil => rfl
  | cons kv d ih =>
    obtain ⟨a, b⟩ := kv
    simp only [keys_cons, List.mem_cons, not_or] at h
    simp [set, Ne.symm h.1, ih h.2]

theorem keys_set_of_mem (d : Dict K V) (k : K) (v : V) (h : k ∈ keys d) :
    keys (set d k v) = keys d := by
  induction d with
  | nil => simp at h
  | cons kv d ih =>
    obtain ⟨a, b⟩ := kv
    by_cases ha : a = k
    · simp [set, ha]
    · have : k ∈ keys d := by
        rcases List.mem_cons.1 h with h | h
        · exact absurd h.symm ha
        · exact h
      simp [set, ha, ih this]

theorem keys_append (d e : Dict K V) : keys (d ++ e) = keys d ++ keys e := by
  simp [keys]

theorem values_append (d e : Dict K V) : values (d ++ e) = values d ++ values e := by
  simp [values]

theorem keys_set_of_not_mem (d : Dict K V) (k : K) (v : V) (h : k ∉ keys d) :
    keys (set d k v) = keys d ++ [k] := by
  rw [set_of_not_mem d k v h, keys_append]; rfl

theorem mem_keys_set (d : Dict K V) (k k' : K) (v : V) :
    k' ∈ keys (set d k v) ↔ k' = k ∨ k' ∈ keys d := by
  by_cases h : k ∈ keys d
  · rw [keys_set_of_mem d k v h]
    constructor
    · exact Or.inr
    · rintro (rfl | h') <;> assumption
  · rw [keys_set_of_not_mem d k v h]; simp [or_comm]

theorem nodup_keys_set (d : Dict K V) (k : K) (v : V) (nd : (keys d).Nodup) :
    (keys (set d k v)).Nodup := by
  by_cases h : k ∈ keys d
  · rwa [keys_set_of_mem d k v h]
  · rw [keys_set_of_not_mem d k v h, List.nodup_append]
    refine ⟨nd, by simp, ?_⟩
    intro a ha b hb
    rw [List.mem_singleton] at hb
    rintro rfl
    exact h (hb ▸ ha)

theorem del_of_not_mem (d : Dict K V) (k : K) (h : k ∉ keys d) : del d k = d := by
  induction d with
  | nil => rfl
  | cons kv d ih =>
    obtain ⟨a, b⟩ := kv
    simp only [keys_cons, List.mem_cons, not_or] at h
    simp [del, Ne.symm h.1, ih h.2]

theorem del_append_of_not_mem (d e : Dict K V) (k : K) (h : k ∉ keys d) :
    del (d ++ e) k = d ++ del e k := by
  induction d with
  | nil => rfl
  | cons kv d ih =>
    obtain ⟨a, b⟩ := kv
    simp only [keys_cons, List.mem_cons, not_or] at h
    simp [del, Ne.symm h.1, ih h.2]

/-- Inserting a fresh key and deleting it again restores the dictionary exactly. -/
theorem del_set_of_not_mem (d : Dict K V) (k : K) (v : V) (h : k ∉ keys d) :
    del (set d k v) k = d := by
  rw [set_of_not_mem d k v h, del_append_of_not_mem d _ k h]; simp [del]

theorem set_set (d : Dict K V) (k : K) (v w : V) : set (set d k v) k w = set d k w := by
  induction d with
  | nil => simp [set]
  | cons kv d ih =>
    obtain ⟨a, b⟩ := kv
    by_cases ha : a = k <;> simp [set, ha, ih]

theorem set_get (d : Dict K V) (k : K) (v : V) (h : get? d k = some v) : set d k v = d := by
  induction d with
  | nil => simp at h
  | cons kv d ih =>
    obtain ⟨a, b⟩ := kv
    by_cases ha : a = k
    · subst ha; simp [get?_cons] at h; simp [set, h]
    · simp [get?_cons, ha] at h; simp [set, ha, ih h]

theorem keys_del (d : Dict K V) (k : K) : keys (del d k) = (keys d).erase k := by
  induction d with
  | nil => rfl
  | cons kv d ih =>
    obtain ⟨a, b⟩ := kv
    by_cases ha : a = k
    · simp [del, ha]
    · simp [del, ha, ih]

theorem nodup_keys_del (d : Dict K V) (k : K) (nd : (keys d).Nodup) :
    (keys (del d k)).Nodup := by
  rw [keys_del]; exact nd.erase k

theorem get?_del (d : Dict K V) (nd : (keys d).Nodup) (k k' : K) :
    get? (del d k) k' = if k = k' then none else get? d k' := by
  by_cases h : k = k'
  · subst h
    rw [if_pos rfl, get?_eq_none_iff, keys_del]
    exact nd.not_mem_erase
  · rw [if_neg h]
    induction d with
    | nil => rfl
    | cons kv d ih =>
      obtain ⟨a, b⟩ := kv
      simp only [keys_cons, List.nodup_cons] at nd
      by_cases ha : a = k
      · subst ha; simp [del, get?_cons, h]
      · by_cases hb : a = k'
        · subst hb; simp [del, ha, get?_cons]
        · simp [del, ha, get?_cons, hb, ih nd.2]

theorem mem_keys_del (d : Dict K V) (nd : (keys d).Nodup) (k k' : K) :
    k' ∈ keys (del d k) ↔ k' ≠ k ∧ k' ∈ keys d := by
  rw [keys_del, nd.mem_erase_iff]

theorem perm_cons_del (d : Dict K V) (k : K) (v : V) (h : get? d k = some v) :
    d.Perm ((k, v) :: del d k) := by
  induction d with
  | nil => simp at h
  | cons kv d ih =>
    obtain ⟨a, b⟩ := kv
    by_cases ha : a = k
    · subst ha; simp [get?_cons] at h; simp [del, h]
    · simp [get?_cons, ha] at h
      simp only [del, if_neg ha]
      exact ((ih h).cons _).trans (List.Perm.swap _ _ _)

theorem perm_values_del (d : Dict K V) (k : K) (v : V) (h : get? d k = some v) :
    (values d).Perm (v :: values (del d k)) :=
  (perm_cons_del d k v h).map Prod.snd

theorem getItem_eq (d : Dict K V) (k : K) :
    getItem d k = match get? d k with | some v => .ok v | none => .error .keyError := rfl

theorem getItem_ok {d : Dict K V} {k : K} {v : V} (h : get? d k = some v) :
    getItem d k = .ok v := by simp [getItem, h]

@[simp] theorem has_nil (k : K) : has ([] : Dict K V) k = false := rfl

theorem has_set (d : Dict K V) (k k' : K) (v : V) :
    has (set d k v) k' = (decide (k = k') || has d k') := by
  unfold has
  rw [get?_set]
  by_cases h : k = k' <;> simp [h]

theorem update_nil (d : Dict K V) : update d [] = d := rfl

theorem update_cons (d : Dict K V) (kv : K × V) (e : Dict K V) :
    update d (kv :: e) = update (set d kv.1 kv.2) e := rfl

theorem update_append_of_disjoint (d e : Dict K V) (nd : (keys e).Nodup)
    (h : ∀ k ∈ keys e, k ∉ keys d) : update d e = d ++ e := by
  induction e generalizing d with
  | nil => simp [update_nil]
  | cons kv e ih =>
    simp only [keys_cons, List.nodup_cons] at nd
    have h1 : kv.1 ∉ keys d := h _ (by simp)
    rw [update_cons, set_of_not_mem _ _ _ h1, ih _ nd.2]
    · simp
    · intro k hk
      rw [keys_append, List.mem_append, not_or]
      refine ⟨h k (by simp [hk]), ?_⟩
      simp only [keys_cons, keys_nil, List.mem_singleton]
      rintro rfl
      exact nd.1 hk

/-- `OrderedDict(d.items())` is a copy of `d`. -/
theorem update_nil_left (d : Dict K V) (nd : (keys d).Nodup) : update [] d = d := by
  have := update_append_of_disjoint ([] : Dict K V) d nd (by simp)
  simpa using this

theorem get?_update (d e : Dict K V) (nd : (keys e).Nodup) (k : K) :
    get? (update d e) k = match get? e k with | some v => some v | none => get? d k := by
  induction e generalizing d with
  | nil => rfl
  | cons kv e ih =>
    obtain ⟨a, b⟩ := kv
    simp only [keys_cons, List.nodup_cons] at nd
    rw [update_cons, ih _ nd.2, get?_set, get?_cons]
    by_cases ha : a = k
    · subst ha
      have : get? e a = none := (get?_eq_none_iff e a).2 nd.1
      simp [this]
    · simp [ha]

theorem get?_append (d e : Dict K V) (k : K) :
    get? (d ++ e) k = match get? d k with | some v => some v | none => get? e k := by
  induction d with
  | nil => rfl
  | cons kv d ih =>
    obtain ⟨a, b⟩ := kv
    by_cases ha : a = k <;> simp [get?_cons, ha, ih]

theorem mem_keys_iff {d : Dict K V} {k : K} : k ∈ keys d ↔ ∃ v, (k, v) ∈ d := by
  simp [keys]

theorem mem_keys_of_get? {d : Dict K V} {k : K} {v : V} (h : get? d k = some v) :
    k ∈ keys d := mem_keys_iff.2 ⟨v, mem_of_get? h⟩

theorem exists_get?_of_mem_keys {d : Dict K V} {k : K} (h : k ∈ keys d) :
    ∃ v, get? d k = some v := by
  rw [← has_iff] at h
  exact Option.isSome_iff_exists.1 h

end Dict
end Cgpm2
