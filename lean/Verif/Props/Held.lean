import Verif.Lemmas.HeldRow
import Verif.Lemmas.ConcreteDensity
import Verif.Lemmas.TidyLaws

/-!
# Property C26: a row held by a mixture answers from its own cluster
-/

namespace Cgpm2
open Spec

variable {Z : List Var} {n : Nat}

theorem held_finMix {m : FinMix (Cgpm n)} {z : Var} {supp : List Int}
    (h : Tidy Z (n + 1) (.finMix m : Node (Cgpm n)))
    (hm : IsMixture (n := n + 1) (.finMix m : Node (Cgpm n)) z supp) {r : RowId} {k : Val} {g : Rng}
    (hr : heldCell (cgpmI (n + 1)) (.finMix m : Node (Cgpm n)) g r z = some k) :
    z = m.indexer ∧ Dict.get? m.rowidToComponent r = some k := by
  have hreg := tidy_reg h
  rw [heldCell_eq (cgpmTLaws Z (n + 1)) hreg] at hr
  have hz : z = m.indexer := by simp [RowMix.indexer, hm.1]
  exact ⟨hz, by subst hz; exact (if_pos rfl).symm.trans hr⟩

theorem held_flexMix {m : FlexMix (Cgpm n)} {z : Var} {supp : List Int}
    (h : Tidy Z (n + 1) (.flexMix m : Node (Cgpm n)))
    (hm : IsMixture (n := n + 1) (.flexMix m : Node (Cgpm n)) z supp) {r : RowId} {k : Val} {g : Rng}
    (hr : heldCell (cgpmI (n + 1)) (.flexMix m : Node (Cgpm n)) g r z = some k) :
    z = m.indexer ∧ Dict.get? m.rowidToComponent r = some k := by
  have hreg := tidy_reg h
  rw [heldCell_eq (cgpmTLaws Z (n + 1)) hreg] at hr
  have hz : z = m.indexer := by simp [RowMix.indexer, hm.1]
  exact ⟨hz, by subst hz; exact (if_pos rfl).symm.trans hr⟩

theorem comp_flexMix {m : FlexMix (Cgpm n)}
    (h : (flexMixTab (cgpmI n) (cgpmSem n) Z (cgpmTab Z n)).Reg m) (k : Val) :
    (cgpmSem n).E ((Dict.get? m.array.cgpms k).getD m.array.base) (m.array.comp (cgpmSem n) k) := by
  unfold FlexArray.comp
  have hc := h.inv.2.1.2.1 k
  unfold FlexArray.comp at hc
  rcases hk : Dict.get? m.array.cgpms k with _ | c <;> rw [hk] at hc
  · exact (flexMix_base (cgpmLaws n) (cgpmTLaws Z n) h).2.1
  · exact (cgpmLaws n).refl _ hc.1

namespace Props

/-- A row held in cluster `k` has a component: `k` is a whole number, and the component's outputs
are those of the mixture other than the cluster variable. -/
theorem C26_component {c : Cgpm (n + 1)} (h : Tidy Z (n + 1) c) {z : Var} {supp : List Int}
    (hm : IsMixture c z supp) {r : RowId} {k : Val} {g : Rng}
    (hr : heldCell (cgpmI (n + 1)) c g r z = some k) :
    (∃ j : Int, k = .num (j : ℚ)) ∧ ∃ comp, IsComponent c k comp ∧
      (cgpmI (n + 1)).outputs c = z :: (cgpmI n).outputs comp := by
  have hreg := tidy_reg h
  cases c with
  | prim p => exact hm.elim
  | product p => exact hm.elim
  | finArray p => exact hm.elim
  | flexArray p => exact hm.elim
  | finMix m =>
    obtain ⟨rfl, hk⟩ := held_finMix h hm hr
    obtain ⟨h1, comp, hc, -⟩ := hreg.books r k hk
    obtain ⟨j, hj', hj, -⟩ := FinArray.get_some hc
    obtain rfl := natIndex_inj hj' (natIndex_nat j)
    refine ⟨h1, comp, ⟨j, rfl, hj⟩, ?_⟩
    change m.rowDivide.outputs ++ (finArrayI (cgpmI n)).outputs m.array = _
    rw [hreg.out, (hreg.comp _ _ hc).2]
    rfl
  | flexMix m =>
    obtain ⟨rfl, hk⟩ := held_flexMix h hm hr
    obtain ⟨h1, comp, hc, -⟩ := hreg.books r k hk
    refine ⟨h1, _, rfl, ?_⟩
    change m.rowDivide.outputs ++ (flexArrayI (cgpmI n)).outputs m.array = _
    rw [hreg.out, (cgpmLaws n).outputs_E (comp_flexMix hreg k), (hreg.comp k _ rfl).2]
    rfl

/-- `logpdf` of a held row asks the row's own component about the targets other than the cluster,
given the constraints. -/
theorem C26_logpdf {c : Cgpm (n + 1)} (h : Tidy Z (n + 1) c) {z : Var} {supp : List Int}
    (hm : IsMixture c z supp) {r : RowId} {k : Val} {g : Rng}
    (hr : heldCell (cgpmI (n + 1)) c g r z = some k) {comp : Cgpm n} (hc : IsComponent c k comp)
    (t : Dict Var Val) {cs : Dict Var Val} (hcs : z ∉ Dict.keys cs) :
    logpdfOf c g r t cs =
      if only ((cgpmI n).outputs comp) t = [] then .ok (.fin 0)
      else logpdfOf comp g r (only ((cgpmI n).outputs comp) t) (only ((cgpmI n).outputs comp) cs) := by
  have hreg := tidy_reg h
  cases c with
  | prim p => exact hm.elim
  | product p => exact hm.elim
  | finArray p => exact hm.elim
  | flexArray p => exact hm.elim
  | finMix m =>
    obtain ⟨rfl, hk⟩ := held_finMix h hm hr
    obtain ⟨j, rfl, hj⟩ := hc
    have hget : finArr.get m.array (.num (j : ℚ)) = some comp := by
      simp only [finArr, natIndex_nat, Option.bind_some, hj]
    rw [(hreg.comp _ _ hget).2]
    exact held_logpdf (cgpmLaws n) (finArrLaws _ _) hreg.inv.2.1 hreg.x_eq hk hget
      ((cgpmLaws n).refl _ ((cgpmTLaws Z n).inv _ (hreg.comp _ _ hget).1)) g hcs
  | flexMix m =>
    obtain ⟨rfl, hk⟩ := held_flexMix h hm hr
    have hc : comp = _ := hc
    have hE := comp_flexMix hreg k
    rw [← hc] at hE
    have : (cgpmI n).outputs comp = (flexArrayI (cgpmI n)).outputs m.array := by
      rw [(cgpmLaws n).outputs_E hE, (hreg.comp k _ rfl).2]
    rw [this]
    exact held_logpdf (cgpmLaws n) (flexArrLaws (cgpmLaws n)) hreg.inv.2.1 hreg.x_eq hk rfl hE g hcs

/-- `simulate` of a held row asks the row's own component for the targets other than the cluster,
and puts the row's cluster into every sample if the cluster is a target. -/
theorem C26_simulate {c : Cgpm (n + 1)} (h : Tidy Z (n + 1) c) {z : Var} {supp : List Int}
    (hm : IsMixture c z supp) {r : RowId} {k : Val} {g : Rng}
    (hr : heldCell (cgpmI (n + 1)) c g r z = some k) {comp : Cgpm n} (hc : IsComponent c k comp)
    {t : List Var} {cs : Dict Var Val} {N : Option Nat} (hcs : z ∉ Dict.keys cs) {out : SimOut}
    (ho : (if onlyVars ((cgpmI n).outputs comp) t = [] then .ok (noValues N)
      else ((cgpmI n).simulate r (onlyVars ((cgpmI n).outputs comp) t)
        (only ((cgpmI n).outputs comp) cs) [] N (comp, g)).1) = .ok out) (hw : WellFormed N out) :
    ((cgpmI (n + 1)).simulate r t cs [] N (c, g)).1 =
      .ok (if z ∈ t then withValue z k out else out) := by
  have hreg := tidy_reg h
  cases c with
  | prim p => exact hm.elim
  | product p => exact hm.elim
  | finArray p => exact hm.elim
  | flexArray p => exact hm.elim
  | finMix m =>
    obtain ⟨rfl, hk⟩ := held_finMix h hm hr
    obtain ⟨j, rfl, hj⟩ := hc
    have hget : finArr.get m.array (.num (j : ℚ)) = some comp := by
      simp only [finArr, natIndex_nat, Option.bind_some, hj]
    rw [(hreg.comp _ _ hget).2] at ho
    exact held_simulate (cgpmLaws n) (finArrLaws _ _) hreg.inv.2.1 hreg.x_eq hk hget
      ((cgpmLaws n).refl _ ((cgpmTLaws Z n).inv _ (hreg.comp _ _ hget).1)) g hcs ho hw
  | flexMix m =>
    obtain ⟨rfl, hk⟩ := held_flexMix h hm hr
    have hc : comp = _ := hc
    have hE := comp_flexMix hreg k
    rw [← hc] at hE
    have : (cgpmI n).outputs comp = (flexArrayI (cgpmI n)).outputs m.array := by
      rw [(cgpmLaws n).outputs_E hE, (hreg.comp k _ rfl).2]
    rw [this] at ho
    exact held_simulate (cgpmLaws n) (flexArrLaws (cgpmLaws n)) hreg.inv.2.1 hreg.x_eq hk rfl hE g
      hcs ho hw

/-- Constraining the cluster of a held row is rejected, also when the constraint agrees. -/
theorem C26_rejected {c : Cgpm (n + 1)} (h : Tidy Z (n + 1) c) {z : Var} {supp : List Int}
    (hm : IsMixture c z supp) {r : RowId} {k : Val} {g : Rng}
    (hr : heldCell (cgpmI (n + 1)) c g r z = some k) {cs : Dict Var Val} (hcs : z ∈ Dict.keys cs)
    (t : Dict Var Val) (ts : List Var) (i : Dict Var Val) (N : Option Nat) :
    ((cgpmI (n + 1)).logpdf r t cs i (c, g)).1 = .error .assertionError ∧
    ((cgpmI (n + 1)).simulate r ts cs i N (c, g)).1 = .error .assertionError := by
  cases c with
  | prim p => exact hm.elim
  | product p => exact hm.elim
  | finArray p => exact hm.elim
  | flexArray p => exact hm.elim
  | finMix m =>
    obtain ⟨rfl, hk⟩ := held_finMix h hm hr
    exact ⟨held_logpdf_rejected hk g t i hcs, held_simulate_rejected hk g ts i N hcs⟩
  | flexMix m =>
    obtain ⟨rfl, hk⟩ := held_flexMix h hm hr
    exact ⟨held_logpdf_rejected hk g t i hcs, held_simulate_rejected hk g ts i N hcs⟩

/-- A view that observed `row0` holds it in cluster 0. -/
example (g : Rng) : ∃ c', Tidy [5] 2 c' ∧ (∃ supp, IsMixture c' 5 supp) ∧
    heldCell (cgpmI 2) c' g (some 7) 5 = some (.num 0) := by
  obtain ⟨c', g', h⟩ := Concrete.view_observes (some 7) g
  have ht : Tidy [5] 2 c' := .observe Concrete.view_tidy Concrete.row0_whole h
  have hreg := tidy_reg Concrete.view_tidy
  have hf := (holdsNothing_iff (cgpmTLaws [5] 2) hreg (some 7)).1 (Concrete.view_empty _)
  obtain ⟨h1, -, -, -, -, h5, -⟩ := (cgpmTLaws [5] 2).observe _ _ _ _ _ _ _ hreg
    Concrete.row0_whole h
  refine ⟨c', ht, ?_, ?_⟩
  · obtain ⟨t, rfl, ht'⟩ := inside_ok (S := Cgpm 1) h
    have h1 : (flexMixTab (cgpmI 1) (cgpmSem 1) [5] (cgpmTab [5] 1)).Reg t := h1
    have hx : t.rowDivide.outputs = [5] := by
      have h2 := (flexMixLaws (cgpmLaws 1)).observe_attrs (some 7) Concrete.row0 [] Concrete.view g
        (((flexMixTLaws (cgpmLaws 1) (cgpmTLaws [5] 1))).inv _ hreg)
      rw [show (flexMixI (cgpmI 1)).observe (some 7) Concrete.row0 [] (Concrete.view, g) =
        (.ok (), (t, g')) from ht'] at h2
      have h3 : t.rowDivide.outputs ++ (flexArrayI (cgpmI 1)).outputs t.array = [5, 3, 1] :=
        congrArg Prod.fst h2
      rw [h1.out] at h3 ⊢
      simp only [List.cons_append, List.nil_append, List.cons.injEq] at h3
      rw [h3.1]
    obtain ⟨supp, hs⟩ := divides_support h1.divides
    exact ⟨supp, hx, hs⟩
  · rw [heldCell_eq (cgpmTLaws [5] 2) h1]
    exact h5 5 (by rw [Concrete.view_outputs]; simp) _ (hf 5) (by simp [Concrete.row0, Dict.get?_cons])

end Props
end Cgpm2
