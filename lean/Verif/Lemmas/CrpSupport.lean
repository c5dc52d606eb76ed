import Mathlib.Data.List.Sort
import Verif.Lemmas.PrimInv
import Verif.Spec.Primitive

/-!
# The support of a CRP (helpers)
-/

namespace Cgpm2
open Spec

namespace Crp

theorem mem_counts_iff {c : Crp} (hI : c.Inv) (t : Int) :
    t ∈ Dict.keys c.counts ↔ t ∈ Dict.values c.data := by
  constructor
  · intro h
    obtain ⟨n, hn⟩ := Dict.exists_get?_of_mem_keys h
    rw [hI.counts] at hn
    by_cases h0 : c.seated t = 0
    · simp [h0] at hn
    · exact List.count_pos_iff.1 (Nat.pos_of_ne_zero h0)
  · intro h
    have : 0 < c.seated t := List.count_pos_iff.2 h
    have h' := hI.counts t
    rw [if_neg (by omega)] at h'
    exact Dict.mem_keys_of_get? h'

/-- Occupied tables in increasing order. -/
def tables (c : Crp) : List Int := pySorted (Dict.keys c.counts)

theorem tables_perm (c : Crp) : c.tables.Perm (Dict.keys c.counts) :=
  List.perm_insertionSort _ _

theorem tables_nodup {c : Crp} (hI : c.Inv) : c.tables.Nodup :=
  (tables_perm c).nodup_iff.2 hI.nodupC

theorem tables_sorted (c : Crp) : c.tables.Pairwise (· ≤ ·) :=
  List.pairwise_insertionSort _ _

theorem mem_tables {c : Crp} (hI : c.Inv) (t : Int) : t ∈ c.tables ↔ t ∈ Dict.values c.data := by
  rw [(tables_perm c).mem_iff, mem_counts_iff hI]

theorem support_eq {c : Crp} : ∃ f : Int, c.support = c.tables ++ [f] ∧
    ((c.tables = [] ∧ f = 0) ∨ (f - 1 ∈ c.tables ∧ ∀ x ∈ c.tables, x < f)) := by
  unfold support tables
  cases h : pySorted (Dict.keys c.counts) with
  | nil => exact ⟨0, rfl, Or.inl ⟨rfl, rfl⟩⟩
  | cons k ks =>
    refine ⟨pyMax k ks + 1, rfl, Or.inr ⟨?_, ?_⟩⟩
    · simpa using pyMax_mem k ks
    · have := le_foldl_max k ks
      intro x hx
      rcases List.mem_cons.1 hx with rfl | hx
      · have := this.1; omega
      · have := this.2 x hx; omega

theorem values_nil_iff {c : Crp} (hI : c.Inv) : c.tables = [] ↔ Dict.values c.data = [] := by
  constructor
  · intro h
    apply List.eq_nil_iff_forall_not_mem.2
    intro t ht
    have := (mem_tables hI t).2 ht
    simp [h] at this
  · intro h
    apply List.eq_nil_iff_forall_not_mem.2
    intro t ht
    have := (mem_tables hI t).1 ht
    simp [h] at this

/-- The support: occupied tables, then the next one. -/
theorem support_spec {c : Crp} (hI : c.Inv) : ∃ f : Int, c.support = c.tables ++ [f] ∧
    NextTable (Dict.values c.data) f := by
  obtain ⟨f, h1, h2⟩ := support_eq (c := c)
  refine ⟨f, h1, ?_⟩
  rcases h2 with ⟨h, rfl⟩ | ⟨h, h'⟩
  · exact Or.inl ⟨(values_nil_iff hI).1 h, rfl⟩
  · exact Or.inr ⟨(mem_tables hI _).1 h, fun x hx => h' x ((mem_tables hI _).2 hx)⟩

theorem nextTable_unique {ts : List Int} {s t : Int} (hs : NextTable ts s) (ht : NextTable ts t) :
    s = t := by
  rcases hs with ⟨h, rfl⟩ | ⟨h1, h2⟩ <;> rcases ht with ⟨h', rfl⟩ | ⟨h1', h2'⟩
  · rfl
  · simp [h] at h1'
  · simp [h'] at h1
  · have := h2 _ h1'; have := h2' _ h1; omega

theorem nextTable_not_mem {ts : List Int} {t : Int} (ht : NextTable ts t) : t ∉ ts := by
  rcases ht with ⟨h, rfl⟩ | ⟨_, h2⟩
  · simp [h]
  · intro h; exact absurd (h2 t h) (lt_irrefl _)

theorem mem_support_iff {c : Crp} (hI : c.Inv) (t : Int) :
    t ∈ c.support ↔ t ∈ Dict.values c.data ∨ NextTable (Dict.values c.data) t := by
  obtain ⟨f, h1, h2⟩ := support_spec hI
  rw [h1, List.mem_append, mem_tables hI, List.mem_singleton]
  constructor
  · rintro (h | rfl)
    · exact Or.inl h
    · exact Or.inr h2
  · rintro (h | h)
    · exact Or.inl h
    · exact Or.inr (nextTable_unique h h2)

theorem support_increasing {c : Crp} (hI : c.Inv) : c.support.Pairwise (· < ·) := by
  obtain ⟨f, h1, h2⟩ := support_eq (c := c)
  rw [h1, List.pairwise_append]
  refine ⟨?_, by simp, ?_⟩
  · have h3 := tables_sorted c
    have h4 := tables_nodup hI
    have := h3.and h4
    exact this.imp (fun ⟨a, b⟩ => lt_of_le_of_ne a b)
  · intro x hx y hy
    rw [List.mem_singleton] at hy
    subst hy
    rcases h2 with ⟨h, _⟩ | ⟨_, h⟩
    · simp [h] at hx
    · exact h x hx

theorem support_nodup {c : Crp} (hI : c.Inv) : c.support.Nodup :=
  (support_increasing hI).imp (fun h => ne_of_lt h)

theorem tables_perm_dedup {c : Crp} (hI : c.Inv) :
    (Dict.keys c.counts).Perm (Dict.values c.data).dedup := by
  rw [List.perm_ext_iff_of_nodup hI.nodupC (List.nodup_dedup _)]
  intro t
  rw [mem_counts_iff hI, List.mem_dedup]

end Crp

theorem Prim.legal_iff {p : Prim} (hI : p.Inv) (v : Val) : p.Legal v ↔ Accepts p v := by
  cases p with
  | crp c =>
    cases v with
    | nan => simp [Prim.Legal, Accepts]
    | num q =>
      simp only [Prim.Legal, Accepts, Val.num.injEq]
      constructor
      · rintro ⟨q', rfl, h⟩; exact (Crp.mem_support_iff (c := c) hI _).1 h
      · intro h; exact ⟨q, rfl, (Crp.mem_support_iff (c := c) hI _).2 h⟩
  | categorical c => cases v <;> simp [Prim.Legal, Accepts, Categorical.Legal]
  | bernoulli c => cases v <;> simp [Prim.Legal, Accepts, Bernoulli.Legal]
  | normal c => cases v <;> simp [Prim.Legal, Accepts]
  | normalUC c => cases v <;> simp [Prim.Legal, Accepts]
  | poisson c => cases v <;> simp [Prim.Legal, Accepts, Poisson.Legal]

theorem Prim.stored_eq (p : Prim) (v : Val) : p.stored v = keptAs p v := by
  cases p <;> cases v <;> rfl

end Cgpm2
