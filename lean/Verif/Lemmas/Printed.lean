import Verif.Lemmas.ProductLaws
import Verif.Spec.Printed

/-!
# Plain CGPMs that print alike (helpers)
-/

namespace Cgpm2
open Spec

/-- Printed alike. -/
def PrimAlike (r : RowId) (p q : Prim) : Prop :=
  p.render = q.render ∧ PlainPrim r p ∧ PlainPrim r q

theorem primAlike_outputs {p q : Prim} (h : p.render = q.render) :
    p.outputs = q.outputs ∧ p.inputs = q.inputs := by
  cases p <;> cases q <;> simp_all [Prim.render, Prim.outputs, Prim.inputs]

theorem primAlike_logpdf {r : RowId} {p q : Prim} (h : PrimAlike r p q) (t c i : Dict Var Val) :
    p.logpdf r t c i = q.logpdf r t c i := by
  obtain ⟨h, ⟨hp, hp'⟩, hq, hq'⟩ := h
  cases p <;> cases q <;>
    simp only [Prim.render, Rendering.prim.injEq, Prim.kind, ne_eq, not_true_eq_false, Prim.data,
      Crp.getHypers, Categorical.getHypers, Bernoulli.getHypers, Normal.getHypers, NormalUC.getHypers,
      Poisson.getHypers, Categorical.getSuffstats, Bernoulli.getSuffstats,
      Normal.getSuffstats, Poisson.getSuffstats, NormalUC.getParams, List.cons.injEq, Prod.mk.injEq,
      Stat.int.injEq, Stat.num.injEq, Stat.real.injEq, Stat.list.injEq, reduceCtorEq, false_and,
      String.reduceEq, and_true, true_and] at h hp hp' hq hq'
  · obtain ⟨h1, h2, h3, h4, h5, h6, h7⟩ := h
    simp only [Prim.logpdf, Categorical.logpdf, hp', hq', h1, h3, h5, h7]
  · obtain ⟨h1, h2, h4, ⟨h5, h5'⟩, h6, h7⟩ := h
    simp only [Prim.logpdf, Bernoulli.logpdf, hp', hq', h1, h5, h5', h6, h7]
  · obtain ⟨h1, h2, h4, ⟨h5, h6, h7, h8⟩, h9, h10, h11⟩ := h
    simp only [Prim.logpdf, Normal.logpdf, hp', hq', h1, h5, h6, h7, h8, h9, h10, h11]
  · obtain ⟨h1, h2, ⟨h3, h4⟩, h5⟩ := h
    simp only [Prim.logpdf, NormalUC.logpdf, hp', hq', h1, h3, h4]
  · obtain ⟨h1, h2, h4, ⟨h5, h6⟩, h7, h8, h9⟩ := h
    simp only [Prim.logpdf, Poisson.logpdf, hp', hq', h1, h5, h6, h7, h8]

theorem prim_score {p q : Prim} (h : p.render = q.render) (hp : p.kind ≠ .normalUC) :
    p.logpdfScore = q.logpdfScore := by
  cases p <;> cases q <;>
    simp only [Prim.render, Rendering.prim.injEq, Prim.kind, ne_eq, not_true_eq_false,
      Crp.getHypers, Categorical.getHypers, Bernoulli.getHypers, Normal.getHypers,
      Poisson.getHypers, Crp.getSuffstats, Categorical.getSuffstats, Bernoulli.getSuffstats,
      Normal.getSuffstats, Poisson.getSuffstats, List.cons.injEq, Prod.mk.injEq,
      Stat.int.injEq, Stat.num.injEq, Stat.real.injEq, Stat.list.injEq, reduceCtorEq, false_and,
      String.reduceEq, and_true, true_and] at h hp
  · obtain ⟨h1, h2, h4, h5, h6, h7⟩ := h
    simp only [Prim.logpdfScore, Crp.logpdfScore, h5, h6, h7]
  · obtain ⟨h1, h2, h3, h4, h5, h6, h7⟩ := h
    simp only [Prim.logpdfScore, Categorical.logpdfScore, h5, h6, h7]
  · obtain ⟨h1, h2, h4, ⟨h5, h5'⟩, h6, h7⟩ := h
    simp only [Prim.logpdfScore, Bernoulli.logpdfScore, h5, h5', h6, h7]
  · obtain ⟨h1, h2, h4, ⟨h5, h6, h7, h8⟩, h9, h10, h11⟩ := h
    simp only [Prim.logpdfScore, Normal.logpdfScore, h5, h6, h7, h8, h9, h10, h11]
  · obtain ⟨h1, h2, h4, ⟨h5, h6⟩, h7, h8, h9⟩ := h
    simp only [Prim.logpdfScore, Poisson.logpdfScore, h5, h6, h7, h8, h9]

/-- Plain CGPMs printed alike, part by part. -/
def PrintedAlike (r : RowId) : (n : Nat) → Cgpm n → Cgpm n → Prop
  | 0, p, q => PrimAlike r p q
  | _ + 1, .prim p, .prim q => PrimAlike r p q
  | n + 1, .product p, .product q => List.Forall₂ (PrintedAlike r n) p.cgpms q.cgpms
  | _ + 1, _, _ => False

theorem printedAlike_of {r : RowId} : ∀ {n : Nat} {c d : Cgpm n}, Plain r n c → Plain r n d →
    cgpmRender n c = cgpmRender n d → PrintedAlike r n c d
  | 0, _, _, hc, hd, h => ⟨h, hc, hd⟩
  | n + 1, c, d, hc, hd, h => by
    rcases c with p | p | a | a | m | m
    · rcases d with q | q | b | b | w | w
      · exact ⟨h, hc, hd⟩
      · cases p <;> simp [cgpmRender, Prim.render, Product.render] at h
      all_goals exact hd.elim
    · rcases d with q | q | b | b | w | w
      · cases q <;> simp [cgpmRender, Prim.render, Product.render] at h
      · have h' : p.cgpms.map (cgpmRender n) = q.cgpms.map (cgpmRender n) := by
          simpa [cgpmRender, Product.render] using h
        have hc' : ∀ x ∈ p.cgpms, Plain r n x := hc
        have hd' : ∀ x ∈ q.cgpms, Plain r n x := hd
        change List.Forall₂ (PrintedAlike r n) p.cgpms q.cgpms
        revert h' hc' hd'
        generalize p.cgpms = l
        generalize q.cgpms = l'
        intro h' hc' hd'
        induction l generalizing l' with
        | nil =>
          rw [List.map_nil, eq_comm, List.map_eq_nil_iff] at h'
          rw [h']; exact .nil
        | cons x l ih =>
          cases l' with
          | nil => cases h'
          | cons y l' =>
            simp only [List.map_cons, List.cons.injEq] at h'
            exact .cons (printedAlike_of (hc' x (by simp)) (hd' y (by simp)) h'.1)
              (ih _ h'.2 (fun z hz => hc' z (by simp [hz])) fun z hz => hd' z (by simp [hz]))
      all_goals exact hd.elim
    all_goals exact hc.elim

theorem printedAlike_ports {r : RowId} : ∀ {n : Nat} {c d : Cgpm n}, PrintedAlike r n c d →
    ports (cgpmI n) c = ports (cgpmI n) d
  | 0, p, q, h => by
    obtain ⟨h1, h2⟩ := primAlike_outputs h.1
    exact Prod.ext h1 h2
  | n + 1, c, d, h => by
    rcases c with p | p | a | a | m | m <;> rcases d with q | q | b | b | w | w <;>
      first | exact False.elim h | skip
    · obtain ⟨h1, h2⟩ := primAlike_outputs (show PrimAlike r p q from h).1
      exact Prod.ext h1 h2
    · have h' : List.Forall₂ (PrintedAlike r n) p.cgpms q.cgpms := h
      have : p.cgpms.map (ports (cgpmI n)) = q.cgpms.map (ports (cgpmI n)) := by
        revert h'
        generalize p.cgpms = l
        generalize q.cgpms = l'
        intro h'
        induction h' with
        | nil => rfl
        | cons hx _ ih => rw [List.map_cons, List.map_cons, ih, printedAlike_ports hx]
      have e1 : ∀ l : List (Cgpm n), l.flatMap (cgpmI n).outputs =
          (l.map (ports (cgpmI n))).flatMap Prod.fst := by
        intro l; simp [List.flatMap_map, ports]
      have e2 : ∀ l : List (Cgpm n), l.flatMap (cgpmI n).inputs =
          (l.map (ports (cgpmI n))).flatMap Prod.snd := by
        intro l; simp [List.flatMap_map, ports]
      refine Prod.ext ?_ ?_
      · change p.cgpms.flatMap (cgpmI n).outputs = q.cgpms.flatMap (cgpmI n).outputs
        rw [e1, e1, this]
      · change p.cgpms.flatMap (cgpmI n).inputs = q.cgpms.flatMap (cgpmI n).inputs
        rw [e2, e2, this]

theorem rel_printedAlike (r : RowId) : ∀ (n : Nat) (t c i : Dict Var Val),
    Py.Rel (PrintedAlike r n) ((cgpmI n).logpdf r t c i) ((cgpmI n).logpdf r t c i)
  | 0, t, c, i => fun p q _ h => ⟨primAlike_logpdf h t c i, h, rfl⟩
  | n + 1, t, c, i => by
    intro x y g h
    rcases x with p | p | a | a | m | m <;> rcases y with q | q | b | b | w | w <;>
      first | exact False.elim h | skip
    · exact ⟨primAlike_logpdf h t c i, h, rfl⟩
    · have hone : Py.Rel (PrintedAlike r n) (logpdfOne (cgpmI n) r t c i) (logpdfOne (cgpmI n) r t c i) := by
        refine Py.Rel.get fun s s' g h => ?_
        have e := printedAlike_ports h
        have e1 : (cgpmI n).outputs s = (cgpmI n).outputs s' := congrArg Prod.fst e
        have e2 : (cgpmI n).inputs s = (cgpmI n).inputs s' := congrArg Prod.snd e
        simp only [e1, e2]
        split
        · exact ⟨rfl, h, rfl⟩
        · exact rel_printedAlike r n _ _ _ _ _ _ h
      have hp : Py.Rel (fun p q : Product (Cgpm n) => List.Forall₂ (PrintedAlike r n) p.cgpms q.cgpms)
          (Product.logpdf (cgpmI n) r t c i) (Product.logpdf (cgpmI n) r t c i) := by
        have he : Py.Rel (fun p q : Product (Cgpm n) => List.Forall₂ (PrintedAlike r n) p.cgpms q.cgpms)
            (Product.each (logpdfOne (cgpmI n) r t c i)) (Product.each (logpdfOne (cgpmI n) r t c i)) := by
          rintro ⟨l⟩ ⟨l'⟩ g h
          exact hone.each l l' g h
        exact he.bind fun _ => Py.Rel.pure _
      obtain ⟨h1, h2, h3⟩ := hp p q g h
      exact ⟨h1, h2, h3⟩

end Cgpm2
