import Verif.Lemmas.TowerLaws
import Verif.Spec.Composite

/-!
# What can be built satisfies the laws (helpers)
-/

namespace Cgpm2
open Spec

variable {S : Type} {I : Iface S} {M : Sem S}

theorem ask_rel (L : Laws I M) (a : Ask) : Py.Rel M.E (ask I a) (ask I a) := by
  intro s s' g h
  have aux : ∀ {α : Type} (f : α → Answer) (x y : Except Err α × (S × Rng)), Py.OutRel M.E x y →
      Py.OutRel M.E (x.1.map f, x.2) (y.1.map f, y.2) := by
    rintro α f x y ⟨h1, h2, h3⟩
    exact ⟨by simp only [h1], h2, h3⟩
  cases a with
  | observe r o i => exact aux _ _ _ (L.observe r o i s s' g h)
  | unobserve r => exact aux _ _ _ (L.unobserve r s s' g h)
  | logpdf r t c i => exact aux _ _ _ (L.logpdf r t c i s s' g h)
  | simulate r t c i N => exact aux _ _ _ (L.simulate r t c i N s s' g h)
  | logpdfScore => exact ⟨by simp only [ask, L.score_E _ _ h], h, rfl⟩
  | outputs => exact ⟨by simp only [ask, L.outputs_E h], h, rfl⟩
  | inputs => exact ⟨by simp only [ask, L.inputs_E h], h, rfl⟩
  | rebuild =>
    have h1 : I.fromMetadata (I.toMetadata s) = .ok (M.strip s) := L.clone s (L.inv _ _ h)
    have h2 : I.fromMetadata (I.toMetadata s') = .ok (M.strip s') := L.clone s' (L.inv' h)
    simp only [ask, h1, h2]
    exact ⟨rfl, L.trans _ _ _ (L.symm _ _ (L.strip _ (L.inv _ _ h)))
      (L.trans _ _ _ h (L.strip _ (L.inv' h))), rfl⟩

theorem answers_E (L : Laws I M) (as : List Ask) {s s' : S} (h : M.E s s') (g : Rng) :
    answers I as (s, g) = answers I as (s', g) := by
  induction as generalizing s s' g with
  | nil => rfl
  | cons a as ih =>
    obtain ⟨h1, h2, h3⟩ := ask_rel L a s s' g h
    simp only [answers, h1]
    congr 1
    have := ih h2 (ask I a (s, g)).2.2
    rw [show (ask I a (s', g)).2 = ((ask I a (s', g)).2.1, (ask I a (s, g)).2.2) by rw [h3]]
    exact this

theorem ask_query_E (L : Laws I M) {a : Ask} (ha : a.IsQuery) {s : S} (h : M.Inv s) (g : Rng) :
    M.E s (ask I a (s, g)).2.1 := by
  cases a with
  | logpdf r t c i => exact L.E_logpdf h ..
  | simulate r t c i N => exact L.E_simulate h ..
  | logpdfScore => exact L.refl s h
  | outputs => exact L.refl s h
  | inputs => exact L.refl s h
  | _ => exact ha.elim

theorem Prim.good_of_legally {p : Prim} (h : LegallyReachable p) : p.Good :=
  ⟨h.inv, h.legal⟩

theorem Prim.init_finMix {n : Nat} {d : Prim} {cs : List (Cgpm n)} {m : FinMix (Cgpm n)}
    (h : FinMix.init d cs = .ok m) : ∃ x, d.outputs = [x] ∧ cs ≠ [] ∧ m = ⟨d, ⟨cs, x, []⟩, []⟩ ∧
      d.support = .ok ((List.range cs.length).map fun k : Nat => (k : Int)) := by
  unfold FinMix.init at h
  by_cases h1 : d.outputs.length ≠ 1
  · simp [h1, throw, throwThe, MonadExceptOf.throw, bind, Except.bind] at h
  · rcases hs : d.support with e | sup
    · simp [h1, hs, bind, Except.bind] at h
    · simp only [h1, if_false, hs, bind, Except.bind, pure, Except.pure] at h
      by_cases h2 : (List.range cs.length).map (fun n : Nat => (n : Int)) ≠ sup
      · simp [h2, throw, throwThe, MonadExceptOf.throw] at h
      · obtain ⟨x, hx⟩ := List.length_eq_one_iff.1 (not_not.1 h1)
        simp only [h2, if_false, hx, List.headD_cons] at h
        rcases cs with _ | ⟨c, cs⟩
        · cases h
        · simp only [FinArray.init, Except.ok.injEq] at h
          exact ⟨x, hx, by simp, h.symm, by rw [not_not.1 h2]⟩

theorem built_inv {n : Nat} {c : Cgpm n} (h : Built n c) : (cgpmSem n).Inv c := by
  induction h with
  | prim0 h => exact Prim.good_of_legally h
  | prim h => exact Prim.good_of_legally h
  | @product n cs p hc h ih =>
    have : Product.validate (cgpmI n) cs = .ok () ∧ p = ⟨cs⟩ := by
      unfold Product.init at h
      rcases hv : Product.validate (cgpmI n) cs with e | u
      · rw [hv] at h; cases h
      · rw [hv] at h
        simp only [bind, Except.bind, pure, Except.pure, Except.ok.injEq] at h
        exact ⟨rfl, h.symm⟩
    obtain ⟨h1, rfl⟩ := this
    exact ⟨ih, h1⟩
  | @finArray n cs x a hc h ih =>
    rcases cs with _ | ⟨c, cs⟩
    · cases h
    · simp only [FinArray.init, Except.ok.injEq] at h
      subst h
      exact ⟨ih, by simp, by simp⟩
  | @flexArray n b x hb hs ih =>
    refine ⟨⟨ih, hs⟩, fun k => ⟨(cgpmLaws n).inv_strip ih, ⟨0, ?_⟩,
      ((cgpmLaws n).shape_E ((cgpmLaws n).strip _ ih)).symm⟩, by simp [FlexArray.init],
      by simp [FlexArray.init]⟩
    exact ((cgpmLaws n).score_E _ _ ((cgpmLaws n).strip _ ih)).symm.trans hs
  | @finMix n d cs m hd hk hc h ih =>
    obtain ⟨x, h1, h2, rfl, h4⟩ := Prim.init_finMix h
    exact ⟨Prim.good_of_legally hd, ⟨ih, h2, by simp⟩, by simp, hk, by
      simpa [finArraySem, Shape.count] using h4⟩
  | @flexMix n d b m hd hb hs h ih =>
    have : m = ⟨d, FlexArray.init b (d.outputs.headD 0), []⟩ := by
      unfold FlexMix.init at h
      split at h
      · cases h
      · simpa using h.symm
    subst this
    refine ⟨Prim.good_of_legally hd, ⟨⟨ih, hs⟩, fun k => ⟨(cgpmLaws n).inv_strip ih, ⟨0, ?_⟩,
      ((cgpmLaws n).shape_E ((cgpmLaws n).strip _ ih)).symm⟩,
      by simp [FlexArray.init], by simp [FlexArray.init]⟩, by simp, trivial⟩
    exact ((cgpmLaws n).score_E _ _ ((cgpmLaws n).strip _ ih)).symm.trans hs
  | @call n c h a g ih =>
    exact (cgpmLaws n).inv _ _ (ask_rel (cgpmLaws n) a c c g ((cgpmLaws n).refl c ih)).2.1

theorem strip_eq (n : Nat) (c : Cgpm n) : (cgpmSem n).strip c = withoutParams n c := by
  induction n with
  | zero => cases c <;> rfl
  | succ n ih =>
    have hf : (cgpmSem n).strip = withoutParams n := funext ih
    have hp : ∀ p : Prim, primSem.strip p = primWithoutParams p := by intro p; cases p <;> rfl
    cases c with
    | prim p => exact congrArg Node.prim (hp p)
    | product p =>
      change Node.product ⟨p.cgpms.map (cgpmSem n).strip⟩ = _
      rw [hf]; rfl
    | finArray a =>
      change Node.finArray { a with cgpms := a.cgpms.map (cgpmSem n).strip } = _
      rw [hf]; rfl
    | flexArray a =>
      change Node.flexArray { a with
        base := (cgpmSem n).strip a.base
        cgpms := a.cgpms.map fun kc => (kc.1, (cgpmSem n).strip kc.2) } = _
      rw [hf]; rfl
    | finMix m =>
      change Node.finMix { m with
        rowDivide := primSem.strip m.rowDivide
        array := { m.array with cgpms := m.array.cgpms.map (cgpmSem n).strip } } = _
      rw [hf, hp]; rfl
    | flexMix m =>
      change Node.flexMix { m with
        rowDivide := primSem.strip m.rowDivide
        array := { m.array with
          base := (cgpmSem n).strip m.array.base
          cgpms := m.array.cgpms.map fun kc => (kc.1, (cgpmSem n).strip kc.2) } } = _
      rw [hf, hp]; rfl

end Cgpm2
