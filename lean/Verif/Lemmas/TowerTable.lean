import Verif.Lemmas.ProductTable
import Verif.Lemmas.RowMixTable
import Verif.Lemmas.TowerLaws

/-!
# The table held by a CGPM of any depth (helpers)
-/

namespace Cgpm2
open Spec

variable {S : Type}

theorem natIndex_nat (j : Nat) : natIndex (.num (j : ℚ)) = some j := by
  have := truncate_intCast (j : Int)
  simp only [Int.cast_natCast] at this
  simp [natIndex, isWhole, this]

/-- A legal whole-number cluster selects a component. -/
theorem finX_get {d : Prim} {n : Nat} (h : FinX d n) {z : Val} (hz : d.Legal z)
    (hw : ∃ k : Int, z = .num (k : ℚ)) : ∃ j < n, z = .num ((j : Nat) : ℚ) := by
  obtain ⟨h1, h2⟩ := h
  obtain ⟨k, rfl⟩ := hw
  cases d with
  | categorical c =>
    obtain ⟨i, hi, he⟩ := hz
    simp only [Prim.support, Categorical.support, Except.ok.injEq] at h2
    have := congrArg List.length h2
    simp only [List.length_map, List.length_range] at this
    exact ⟨i, this ▸ hi, by rw [he]⟩
  | bernoulli c =>
    simp only [Prim.support, Bernoulli.support, Except.ok.injEq] at h2
    have := congrArg List.length h2
    simp only [List.length_map, List.length_range, List.length_cons, List.length_nil] at this
    rcases hz with he | he
    · exact ⟨0, by omega, by rw [he]; simp⟩
    · exact ⟨1, by omega, by rw [he]; simp⟩
  | crp c => simp [Prim.kind] at h1
  | normal c => simp [Prim.kind] at h1
  | normalUC c => simp [Prim.kind] at h1
  | poisson c => simp [Prim.kind] at h1

/-- The number of a component is a legal cluster. -/
theorem finX_legal {d : Prim} {n : Nat} (h : FinX d n) {j : Nat} (hj : j < n) :
    d.Legal (.num ((j : Nat) : ℚ)) := by
  obtain ⟨h1, h2⟩ := h
  cases d with
  | categorical c =>
    simp only [Prim.support, Categorical.support, Except.ok.injEq] at h2
    have := congrArg List.length h2
    simp only [List.length_map, List.length_range] at this
    exact ⟨j, by omega, rfl⟩
  | bernoulli c =>
    simp only [Prim.support, Bernoulli.support, Except.ok.injEq] at h2
    have := congrArg List.length h2
    simp only [List.length_map, List.length_range, List.length_cons, List.length_nil] at this
    change ((j : ℚ)) = 0 ∨ (j : ℚ) = 1
    have : j = 0 ∨ j = 1 := by omega
    rcases this with rfl | rfl <;> simp
  | crp c => simp [Prim.kind] at h1
  | normal c => simp [Prim.kind] at h1
  | normalUC c => simp [Prim.kind] at h1
  | poisson c => simp [Prim.kind] at h1

/-- The table held by a finite row mixture. -/
noncomputable def finMixTab (I : Iface S) (M : Sem S) (Z : List Var) (T : Tab S) : Tab (FinMix S) :=
  rowMixTab (finArrayI I) I (finArraySem M) FinX finArr Z T

/-- The table held by a flexible row mixture. -/
noncomputable def flexMixTab (I : Iface S) (M : Sem S) (Z : List Var) (T : Tab S) : Tab (FlexMix S) :=
  rowMixTab (flexArrayI I) I (flexArraySem I M) (fun _ _ => True) (flexArr M) Z T

theorem finMixTLaws {I : Iface S} {M : Sem S} (L : Laws I M) {Z : List Var} {T : Tab S}
    (K : TLaws I M Z T) : TLaws (finMixI I) (finMixSem M) Z (finMixTab I M Z T) :=
  rowMixTLaws (toM := FinMix.toMetadata I) (fromM := FinMix.fromMetadata I) L (finArrayLaws L)
    (finArrLaws I M) stable_finX (finMixLaws L) K fun m h z hz hw => by
      obtain ⟨j, hj, rfl⟩ := finX_get h.inv.2.2.2 hz hw
      have hj' : j < m.array.cgpms.length := by simpa [finArraySem, Shape.count] using hj
      exact ⟨m.array.cgpms[j], by
        simp only [finArr, natIndex_nat, Option.bind_some, List.getElem?_eq_getElem hj']⟩

theorem flexMixTLaws {I : Iface S} {M : Sem S} (L : Laws I M) {Z : List Var} {T : Tab S}
    (K : TLaws I M Z T) : TLaws (flexMixI I) (flexMixSem I M) Z (flexMixTab I M Z T) :=
  rowMixTLaws (toM := FlexMix.toMetadata I) (fromM := FlexMix.fromMetadata I) L (flexArrayLaws L)
    (flexArrLaws L) stable_true (flexMixLaws L) K fun _ _ _ _ _ => ⟨_, rfl⟩

/-- The table held by an object of any class; arrays are only used inside mixtures. -/
noncomputable def nodeTab (I : Iface S) (M : Sem S) (Z : List Var) (T : Tab S) : Tab (Node S) where
  Reg
    | .prim p => (primTab Z).Reg p
    | .product p => (productTab I T).Reg p
    | .finArray _ => False
    | .flexArray _ => False
    | .finMix m => (finMixTab I M Z T).Reg m
    | .flexMix m => (flexMixTab I M Z T).Reg m
  cell
    | .prim p => (primTab Z).cell p
    | .product p => (productTab I T).cell p
    | .finArray _ => fun _ _ => none
    | .flexArray _ => fun _ _ => none
    | .finMix m => (finMixTab I M Z T).cell m
    | .flexMix m => (flexMixTab I M Z T).cell m
  present
    | .prim p => (primTab Z).present p
    | .product p => (productTab I T).present p
    | .finArray _ => fun _ => False
    | .flexArray _ => fun _ => False
    | .finMix m => (finMixTab I M Z T).present m
    | .flexMix m => (flexMixTab I M Z T).present m

section
variable {I : Iface S} {M : Sem S} {Z : List Var} {T : Tab S}

theorem inside_ok {T' α : Type} {f : T' → Node S} {m : Py (T' × Rng) α} {t : T'} {g : Rng} {a : α}
    {s' : Node S} {g' : Rng} (h : Py.inside f m (t, g) = (.ok a, (s', g'))) :
    ∃ t', s' = f t' ∧ m (t, g) = (.ok a, (t', g')) := by
  unfold Py.inside at h
  rcases hm : m (t, g) with ⟨x, t', g1⟩
  rw [hm] at h
  cases h
  exact ⟨t', rfl, rfl⟩

theorem inside_eq {T' α : Type} {f : T' → Node S} {m : Py (T' × Rng) α} {t t' : T'} {g g' : Rng}
    {a : Except Err α} (h : m (t, g) = (a, (t', g'))) :
    Py.inside f m (t, g) = (a, (f t', g')) := by
  unfold Py.inside; rw [h]

theorem nodeTLaws (L : Laws I M) (K : TLaws I M Z T) :
    TLaws (nodeI I) (nodeSem I M) Z (nodeTab I M Z T) where
  inv s h := by
    cases s with
    | prim p => exact (primTLaws Z).inv _ h
    | product p => exact (productTLaws L K).inv _ h
    | finArray p => exact h.elim
    | flexArray p => exact h.elim
    | finMix p => exact (finMixTLaws L K).inv _ h
    | flexMix p => exact (flexMixTLaws L K).inv _ h
  inputs s h := by
    cases s with
    | prim p => exact (primTLaws Z).inputs _ h
    | product p => exact (productTLaws L K).inputs _ h
    | finArray p => exact h.elim
    | flexArray p => exact h.elim
    | finMix p => exact (finMixTLaws L K).inputs _ h
    | flexMix p => exact (flexMixTLaws L K).inputs _ h
  nodup s h := by
    cases s with
    | prim p => exact (primTLaws Z).nodup _ h
    | product p => exact (productTLaws L K).nodup _ h
    | finArray p => exact h.elim
    | flexArray p => exact h.elim
    | finMix p => exact (finMixTLaws L K).nodup _ h
    | flexMix p => exact (flexMixTLaws L K).nodup _ h
  reg_E s s' hE h := by
    cases s <;> cases s' <;> first | exact hE.elim | exact h.elim | skip
    · exact (primTLaws Z).reg_E _ _ hE h
    · exact (productTLaws L K).reg_E _ _ hE h
    · exact (finMixTLaws L K).reg_E _ _ hE h
    · exact (flexMixTLaws L K).reg_E _ _ hE h
  cell_E s s' hE h := by
    cases s <;> cases s' <;> first | exact hE.elim | exact h.elim | skip
    · exact (primTLaws Z).cell_E _ _ hE h
    · exact (productTLaws L K).cell_E _ _ hE h
    · exact (finMixTLaws L K).cell_E _ _ hE h
    · exact (flexMixTLaws L K).cell_E _ _ hE h
  present_E s s' r hE h := by
    cases s <;> cases s' <;> first | exact hE.elim | exact h.elim | skip
    · exact (primTLaws Z).present_E _ _ r hE h
    · exact (productTLaws L K).present_E _ _ r hE h
    · exact (finMixTLaws L K).present_E _ _ r hE h
    · exact (flexMixTLaws L K).present_E _ _ r hE h
  cell_out s r v h hv := by
    cases s with
    | prim p => exact (primTLaws Z).cell_out _ r v h hv
    | product p => exact (productTLaws L K).cell_out _ r v h hv
    | finArray p => exact h.elim
    | flexArray p => exact h.elim
    | finMix p => exact (finMixTLaws L K).cell_out _ r v h hv
    | flexMix p => exact (flexMixTLaws L K).cell_out _ r v h hv
  present_cell s r v h hv := by
    cases s with
    | prim p => exact (primTLaws Z).present_cell _ r v h hv
    | product p => exact (productTLaws L K).present_cell _ r v h hv
    | finArray p => exact h.elim
    | flexArray p => exact h.elim
    | finMix p => exact (finMixTLaws L K).present_cell _ r v h hv
    | flexMix p => exact (flexMixTLaws L K).present_cell _ r v h hv
  whole s r v x h hv hx := by
    cases s with
    | prim p => exact (primTLaws Z).whole _ r v x h hv hx
    | product p => exact (productTLaws L K).whole _ r v x h hv hx
    | finArray p => exact h.elim
    | flexArray p => exact h.elim
    | finMix p => exact (finMixTLaws L K).whole _ r v x h hv hx
    | flexMix p => exact (flexMixTLaws L K).whole _ r v x h hv hx
  observe s r o i g s' g' h hw ho := by
    cases s with
    | prim p =>
      obtain ⟨t, rfl, ht⟩ := inside_ok ho
      exact (primTLaws Z).observe _ r o i g t g' h hw ht
    | product p =>
      obtain ⟨t, rfl, ht⟩ := inside_ok ho
      exact (productTLaws L K).observe _ r o i g t g' h hw ht
    | finArray p => exact h.elim
    | flexArray p => exact h.elim
    | finMix p =>
      obtain ⟨t, rfl, ht⟩ := inside_ok ho
      exact (finMixTLaws L K).observe _ r o i g t g' h hw ht
    | flexMix p =>
      obtain ⟨t, rfl, ht⟩ := inside_ok ho
      exact (flexMixTLaws L K).observe _ r o i g t g' h hw ht
  unobserve s r g h hp := by
    cases s with
    | prim p =>
      obtain ⟨ob, s', h1, h2⟩ := (primTLaws Z).unobserve _ r g h hp
      exact ⟨ob, .prim s', inside_eq h1, h2⟩
    | product p =>
      obtain ⟨ob, s', h1, h2⟩ := (productTLaws L K).unobserve _ r g h hp
      exact ⟨ob, .product s', inside_eq h1, h2⟩
    | finArray p => exact h.elim
    | flexArray p => exact h.elim
    | finMix p =>
      obtain ⟨ob, s', h1, h2⟩ := (finMixTLaws L K).unobserve _ r g h hp
      exact ⟨ob, .finMix s', inside_eq h1, h2⟩
    | flexMix p =>
      obtain ⟨ob, s', h1, h2⟩ := (flexMixTLaws L K).unobserve _ r g h hp
      exact ⟨ob, .flexMix s', inside_eq h1, h2⟩
  unobserve_absent s r g h hp := by
    cases s with
    | prim p =>
      obtain ⟨e, h1⟩ := (primTLaws Z).unobserve_absent _ r g h hp
      exact ⟨e, inside_eq h1⟩
    | product p => exact absurd trivial hp
    | finArray p => exact h.elim
    | flexArray p => exact h.elim
    | finMix p =>
      obtain ⟨e, h1⟩ := (finMixTLaws L K).unobserve_absent _ r g h hp
      exact ⟨e, inside_eq h1⟩
    | flexMix p =>
      obtain ⟨e, h1⟩ := (flexMixTLaws L K).unobserve_absent _ r g h hp
      exact ⟨e, inside_eq h1⟩
  unobserve_fresh s r g h hf := by
    cases s with
    | prim p => exact (primTLaws Z).unobserve_fresh _ r g h hf
    | product p => exact (productTLaws L K).unobserve_fresh _ r g h hf
    | finArray p => exact h.elim
    | flexArray p => exact h.elim
    | finMix p => exact (finMixTLaws L K).unobserve_fresh _ r g h hf
    | flexMix p => exact (flexMixTLaws L K).unobserve_fresh _ r g h hf
  inverse s r o i g s' g' g'' h hf hw ho := by
    cases s with
    | prim p =>
      obtain ⟨t, rfl, ht⟩ := inside_ok ho
      exact (primTLaws Z).inverse _ r o i g t g' g'' h hf hw ht
    | product p =>
      obtain ⟨t, rfl, ht⟩ := inside_ok ho
      exact (productTLaws L K).inverse _ r o i g t g' g'' h hf hw ht
    | finArray p => exact h.elim
    | flexArray p => exact h.elim
    | finMix p =>
      obtain ⟨t, rfl, ht⟩ := inside_ok ho
      exact (finMixTLaws L K).inverse _ r o i g t g' g'' h hf hw ht
    | flexMix p =>
      obtain ⟨t, rfl, ht⟩ := inside_ok ho
      exact (flexMixTLaws L K).inverse _ r o i g t g' g'' h hf hw ht
  chain s r o i g s' g' x y h hf hw hnd hz ho hy hx := by
    cases s with
    | prim p =>
      obtain ⟨t, rfl, ht⟩ := inside_ok ho
      exact (primTLaws Z).chain _ r o i g t g' x y h hf hw hnd hz ht hy hx
    | product p =>
      obtain ⟨t, rfl, ht⟩ := inside_ok ho
      exact (productTLaws L K).chain _ r o i g t g' x y h hf hw hnd hz ht hy hx
    | finArray p => exact h.elim
    | flexArray p => exact h.elim
    | finMix p =>
      obtain ⟨t, rfl, ht⟩ := inside_ok ho
      exact (finMixTLaws L K).chain _ r o i g t g' x y h hf hw hnd hz ht hy hx
    | flexMix p =>
      obtain ⟨t, rfl, ht⟩ := inside_ok ho
      exact (flexMixTLaws L K).chain _ r o i g t g' x y h hf hw hnd hz ht hy hx
end

/-- The table held by a CGPM of any depth. -/
noncomputable def cgpmTab (Z : List Var) : (n : Nat) → Tab (Cgpm n)
  | 0 => primTab Z
  | n + 1 => nodeTab (cgpmI n) (cgpmSem n) Z (cgpmTab Z n)

theorem cgpmTLaws (Z : List Var) : (n : Nat) → TLaws (cgpmI n) (cgpmSem n) Z (cgpmTab Z n)
  | 0 => primTLaws Z
  | n + 1 => nodeTLaws (cgpmLaws n) (cgpmTLaws Z n)

end Cgpm2
