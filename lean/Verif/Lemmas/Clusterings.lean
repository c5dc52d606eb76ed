import Verif.Lemmas.HypersKept
import Verif.Lemmas.RowStep
import Verif.Spec.Posterior

/-!
# Views that hold the same table (helpers)
-/

namespace Cgpm2.Views
open Spec Cpp

variable {Z : List Var}

theorem mates_iff {v : View} (h : (cgpmTab Z 2).Reg v) (r r' : RowId) :
    Mates v r r' ↔ ∃ k, clusterOf v r = some k ∧ clusterOf v r' = some k := by
  unfold Mates
  simp only [heldCell_eq (cgpmTLaws Z 2) h, clusterOf_eq Z]
  exact ⟨fun ⟨k, hk⟩ => ⟨k, hk fun _ => ⟨0, 0⟩⟩, fun ⟨k, hk⟩ => ⟨k, fun _ => hk⟩⟩

theorem cell_absent {v : View} (h : (cgpmTab Z 2).Reg v) (hv : IsView v) {r : RowId} (hc : clusterOf v r = none)
    (o : Var) : (cgpmTab Z 2).cell v r o = none := by
  by_contra hn
  exact (present_cluster h hv r).1 ((cgpmTLaws Z 2).present_cell _ _ _ h hn) hc

theorem samePartition_iff {v w : View} (h : (cgpmTab Z 2).Reg v) (h' : (cgpmTab Z 2).Reg w) :
    SamePartition v w ↔ Relabels (clusterOf v) (clusterOf w) := by
  unfold SamePartition Relabels
  simp only [mates_iff h, mates_iff h']

theorem score_same {v w : View} (h : (cgpmTab Z 2).Reg v) (h' : (cgpmTab Z 2).Reg w) (hv : IsView v)
    (hw : IsView w) (hc : SameContents v w) (hp : SamePartition v w) :
    (cgpmI 2).logpdfScore v = (cgpmI 2).logpdfScore w := by
  refine score_determined h h' hv hw hc.cluster hc.columns hc.hypers (fun r o ho => ?_)
    ((samePartition_iff h h').1 hp)
  have := hc.cells (fun _ => ⟨0, 0⟩) r o ho
  rwa [heldCell_eq (cgpmTLaws Z 2) h, heldCell_eq (cgpmTLaws Z 2) h'] at this

/-- The score of a view is a number. -/
theorem view_scored {v : View} (h : (cgpmTab Z 2).Reg v) (hv : IsView v) :
    ∃ y : ℝ, (cgpmI 2).logpdfScore v = .ok (.fin y) := by
  obtain ⟨m, p, rfl, -⟩ := hv
  have hm : MixReg _ _ _ _ _ _ _ m := h
  exact (RowMix.scored_iff (toM := FlexMix.toMetadata (cgpmI 1)) (fromM := FlexMix.fromMetadata (cgpmI 1))
    hm.inv.1).2 (FlexArray.scored hm.inv.2.1)

theorem sumScore_perm {α : Type} {f : α → Except Err Fl} {l l' : List α} (h : l.Perm l')
    (hs : ∀ a ∈ l, ∃ x : ℝ, f a = .ok (.fin x)) :
    (do let r ← l.mapM f; pure (Fl.sum r) : Except Err Fl) = (do let r ← l'.mapM f; pure (Fl.sum r)) := by
  classical
  choose! y hy using hs
  have e : ∀ l'' : List α, (∀ a ∈ l'', a ∈ l) → l''.mapM f = .ok (l''.map fun a => Fl.fin (y a)) := fun l'' hl =>
    mapM_ok _ _ _ fun a ha => hy a (hl a ha)
  rw [e l fun a ha => ha, e l' fun a ha => h.mem_iff.2 ha]
  simp only [bind, Except.bind, pure, Except.pure, Except.ok.injEq, Fl.sum_eq]
  exact (h.map _).sum_eq

theorem crosscat_score {x x' : Crosscat} (h : (cgpmTab Z 3).Reg (whole x)) (h' : (cgpmTab Z 3).Reg (whole x'))
    (hx : IsCrosscat x) (hx' : IsCrosscat x') {l : List View} (hl : l.Perm x'.cgpms)
    (hs : List.Forall₂ (fun v w => SameContents v w ∧ SamePartition v w) x.cgpms l) :
    (cgpmI 3).logpdfScore (whole x) = (cgpmI 3).logpdfScore (whole x') := by
  have e : x.cgpms.mapM (cgpmI 2).logpdfScore = l.mapM (cgpmI 2).logpdfScore := by
    refine mapM_congr' _ _ ?_
    have h1 : ∀ v ∈ x.cgpms, (cgpmTab Z 2).Reg v ∧ IsView v := fun v hv => ⟨h.1 v hv, hx v hv⟩
    have h2 : ∀ v ∈ l, (cgpmTab Z 2).Reg v ∧ IsView v := fun v hv =>
      ⟨h'.1 v (hl.mem_iff.1 hv), hx' v (hl.mem_iff.1 hv)⟩
    generalize x.cgpms = k at hs h1
    clear hl
    induction hs with
    | nil => exact .nil
    | cons a _ ih =>
      rw [List.forall_mem_cons] at h1 h2
      exact .cons (score_same h1.1.1 h2.1.1 h1.1.2 h2.1.2 a.1 a.2) (ih h2.2 h1.2)
  change (do let r ← x.cgpms.mapM (cgpmI 2).logpdfScore; pure (Fl.sum r) : Except Err Fl) =
    (do let r ← x'.cgpms.mapM (cgpmI 2).logpdfScore; pure (Fl.sum r))
  rw [e]
  exact sumScore_perm hl fun v hv => view_scored (h'.1 v (hl.mem_iff.1 hv)) (hx' v (hl.mem_iff.1 hv))

end Cgpm2.Views
