import Verif.Lemmas.TowerTable
import Verif.Lemmas.ProductEval

/-!
# Rows of which nothing is held are interchangeable in `logpdf` (helpers)
-/

namespace Cgpm2
open Spec

variable {S : Type}

/-- The answer to `logpdf` is the same for two rows of which nothing is held. -/
def FreeRows (I : Iface S) (T : Tab S) : Prop :=
  ∀ s r r' t c i g, T.Reg s → T.Fresh s r → T.Fresh s r' →
    (I.logpdf r t c i (s, g)).1 = (I.logpdf r' t c i (s, g)).1

theorem primTab_fresh {Z : List Var} {p : Prim} (h : (primTab Z).Reg p) {r : RowId}
    (hf : (primTab Z).Fresh p r) : Dict.get? p.data r = none := by
  obtain ⟨o, ho⟩ := h.1.1.out
  have := hf o
  simpa [primTab, ho] using this

theorem Prim.logpdf_free {p : Prim} {r r' : RowId} (h : Dict.get? p.data r = none)
    (h' : Dict.get? p.data r' = none) (t c i) : p.logpdf r t c i = p.logpdf r' t c i := by
  cases p with
  | crp s =>
    rw [Prim.data, Prim.get?_map_data, Option.map_eq_none_iff] at h h'
    simp only [Prim.logpdf, Crp.logpdf, h, h']
  | categorical s =>
    simp only [Prim.data] at h h'
    simp only [Prim.logpdf, Categorical.logpdf, Dict.has, h, h']
  | bernoulli s =>
    simp only [Prim.data] at h h'
    simp only [Prim.logpdf, Bernoulli.logpdf, Dict.has, h, h']
  | normal s =>
    simp only [Prim.data] at h h'
    simp only [Prim.logpdf, Normal.logpdf, Dict.has, h, h']
  | normalUC s =>
    simp only [Prim.data] at h h'
    simp only [Prim.logpdf, NormalUC.logpdf, Dict.has, h, h']
  | poisson s =>
    simp only [Prim.data] at h h'
    simp only [Prim.logpdf, Poisson.logpdf, Dict.has, h, h']

theorem primFree (Z : List Var) : FreeRows primI (primTab Z) := fun _ _ _ t c i _ h hr hr' =>
  Prim.logpdf_free (primTab_fresh h hr) (primTab_fresh h hr') t c i

theorem productFree {I : Iface S} {M : Sem S} (L : Laws I M) {T : Tab S} (hF : FreeRows I T) :
    FreeRows (productI I) (productTab I T) := by
  intro p r r' t c i g h hr hr'
  have hd : ∀ r t c i s g, (I.logpdf r t c i (s, g)).2.2 = g := fun r t c i s g =>
    (L.logpdf_noDraw r t c i s g g).2.2
  rw [Product.logpdf_eq I hd, Product.logpdf_eq I hd]
  congr 1
  have hfr : ∀ r, (productTab I T).Fresh p r → ∀ b ∈ p.cgpms, T.Fresh b r := by
    intro r hr b hb v
    have := hr v
    simp only [productTab] at this
    exact ProdTab.cell_none_iff.1 this b hb
  have : ∀ l : List S, (∀ b ∈ l, T.Reg b ∧ T.Fresh b r ∧ T.Fresh b r') →
      l.mapM (blockLogpdf I r t c i g) = l.mapM (blockLogpdf I r' t c i g) := by
    intro l hl
    induction l with
    | nil => rfl
    | cons b l ih =>
      obtain ⟨h1, h2, h3⟩ := hl b (by simp)
      rw [List.mapM_cons, List.mapM_cons, ih fun b hb => hl b (by simp [hb])]
      have : blockLogpdf I r t c i g b = blockLogpdf I r' t c i g b := by
        unfold blockLogpdf
        split
        · rfl
        · exact hF b r r' _ _ _ g h1 h2 h3
      rw [this]
  exact this p.cgpms fun b hb => ⟨h.1 b hb, hfr r hr b hb, hfr r' hr' b hb⟩

/-- Arrays hand queries to their components. -/
def ArrFree {A : Type} (AI : Iface A) (I : Iface S) (MA : Sem A) (R : Arr A S) : Prop :=
  ∀ a r r', MA.Inv a → (∀ k c, R.get a k = some c → ∀ t cs i g,
    (I.logpdf r t cs i (c, g)).1 = (I.logpdf r' t cs i (c, g)).1) →
    ∀ t cs i g, (AI.logpdf r t cs i (a, g)).1 = (AI.logpdf r' t cs i (a, g)).1

theorem flexArrFree {I : Iface S} {M : Sem S} (L : Laws I M) :
    ArrFree (flexArrayI I) I (flexArraySem I M) (flexArr M) := by
  intro a r r' ha h t cs i g
  change (FlexArray.logpdf I r t cs i (a, g)).1 = (FlexArray.logpdf I r' t cs i (a, g)).1
  unfold FlexArray.logpdf
  rw [Py.get_bind, Py.get_bind]
  dsimp only
  rw [Py.lift_bind, Py.lift_bind]
  rcases popItem i a.indexer with e | ⟨k, i'⟩
  · rfl
  · dsimp only
    rw [FlexArray.onCgpm_eq L k _ a g ha.1.1, FlexArray.onCgpm_eq L k _ a g ha.1.1]
    exact h k _ rfl _ _ _ _

theorem finArrFree (I : Iface S) (M : Sem S) :
    ArrFree (finArrayI I) I (finArraySem M) finArr := by
  intro a r r' ha h t cs i g
  change (FinArray.logpdf I r t cs i (a, g)).1 = (FinArray.logpdf I r' t cs i (a, g)).1
  unfold FinArray.logpdf
  rw [Py.get_bind, Py.get_bind]
  dsimp only
  rw [Py.lift_bind, Py.lift_bind]
  rcases popItem i a.indexer with e | ⟨k, i'⟩
  · rfl
  · dsimp only
    unfold FinArray.onCgpm
    dsimp only
    rcases pyIndex a.cgpms.length k with e | j
    · rfl
    · dsimp only
      rcases hj : a.cgpms[j]? with _ | c
      · rfl
      · exact h (.num j) c (by simp [finArr, natIndex_nat, hj]) _ _ _ _

section
variable {A : Type} {AI : Iface A} {I : Iface S} {MA : Sem A} {M : Sem S} {X : Prim → Nat → Prop}
  {R : Arr A S} {Z : List Var} {T : Tab S}

theorem rowMixFree {toM fromM} (LA : Laws AI MA) (hA : ArrFree AI I MA R) (hF : FreeRows I T) :
    FreeRows (rowMixI AI toM fromM) (rowMixTab AI I MA X R Z T) := by
  intro m r r' t c i g h hr hr'
  have hn := MixReg.fresh_iff hr
  have hn' := MixReg.fresh_iff hr'
  have hm : RowMix.E0 MA m m := ⟨primLaws.refl _ h.inv.1, LA.refl _ h.inv.2.1, rfl⟩
  change (RowMix.logpdf AI r t c i (m, g)).1 = (RowMix.logpdf AI r' t c i (m, g)).1
  rw [RowMix.logpdf_val LA hm hn, RowMix.logpdf_val LA hm hn']
  have hp : ∀ z, RowMix.priorVal m r i z = RowMix.priorVal m r' i z := fun z =>
    Prim.logpdf_free ((h.data r).trans hn) ((h.data r').trans hn') _ _ _
  have hc : ∀ t c z, RowMix.compVal AI m g r t c i z = RowMix.compVal AI m g r' t c i z := by
    intro t c z
    unfold RowMix.compVal
    split
    · rfl
    · refine hA m.array r r' h.inv.2.1 (fun k d hd t cs i g => ?_) _ _ _ _
      exact hF d r r' t cs i g (h.comp k d hd).1 (h.fresh r k d hd (by rw [hn]; simp))
        (h.fresh r' k d hd (by rw [hn']; simp))
  have hv : ∀ x t c, RowMix.val AI m g r x t c i = RowMix.val AI m g r' x t c i := by
    intro x t c
    simp only [RowMix.val, RowMix.marginalVal, hp, hc]
  simp only [hv]

end

theorem nodeFree {I : Iface S} {M : Sem S} (L : Laws I M) {Z : List Var} {T : Tab S}
    (hF : FreeRows I T) : FreeRows (nodeI I) (nodeTab I M Z T) := by
  intro s r r' t c i g h hr hr'
  cases s with
  | prim p => exact primFree Z p r r' t c i g h hr hr'
  | product p => exact productFree L hF p r r' t c i g h hr hr'
  | finArray p => exact h.elim
  | flexArray p => exact h.elim
  | finMix p =>
    exact rowMixFree (toM := FinMix.toMetadata I) (fromM := FinMix.fromMetadata I) (finArrayLaws L)
      (finArrFree I M) hF p r r' t c i g h hr hr'
  | flexMix p =>
    exact rowMixFree (toM := FlexMix.toMetadata I) (fromM := FlexMix.fromMetadata I)
      (flexArrayLaws L) (flexArrFree L) hF p r r' t c i g h hr hr'

theorem cgpmFree (Z : List Var) : (n : Nat) → FreeRows (cgpmI n) (cgpmTab Z n)
  | 0 => primFree Z
  | n + 1 => nodeFree (cgpmLaws n) (cgpmFree Z n)

end Cgpm2
