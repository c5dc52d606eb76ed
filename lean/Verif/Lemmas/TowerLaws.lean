import Verif.Lemmas.MixLaws

/-!
# CGPMs of any depth satisfy the laws (helpers)
-/

namespace Cgpm2
variable {S : Type}

/-- Semantics of an object of any class. -/
def nodeSem (I : Iface S) (M : Sem S) : Sem (Node S) where
  Inv
    | .prim p => primSem.Inv p
    | .product p => (productSem I M).Inv p
    | .finArray a => (finArraySem M).Inv a
    | .flexArray a => (flexArraySem I M).Inv a
    | .finMix m => (finMixSem M).Inv m
    | .flexMix m => (flexMixSem I M).Inv m
  strip
    | .prim p => .prim (primSem.strip p)
    | .product p => .product ((productSem I M).strip p)
    | .finArray a => .finArray ((finArraySem M).strip a)
    | .flexArray a => .flexArray ((flexArraySem I M).strip a)
    | .finMix m => .finMix ((finMixSem M).strip m)
    | .flexMix m => .flexMix ((flexMixSem I M).strip m)
  E
    | .prim p, .prim q => primSem.E p q
    | .product p, .product q => (productSem I M).E p q
    | .finArray p, .finArray q => (finArraySem M).E p q
    | .flexArray p, .flexArray q => (flexArraySem I M).E p q
    | .finMix p, .finMix q => (finMixSem M).E p q
    | .flexMix p, .flexMix q => (flexMixSem I M).E p q
    | _, _ => False
  shape
    | .prim p => primSem.shape p
    | .product p => (productSem I M).shape p
    | .finArray p => (finArraySem M).shape p
    | .flexArray p => (flexArraySem I M).shape p
    | .finMix p => (finMixSem M).shape p
    | .flexMix p => (flexMixSem I M).shape p

variable {I : Iface S} {M : Sem S}

theorem nodeLaws (L : Laws I M) : Laws (nodeI I) (nodeSem I M) where
  refl s h := by
    cases s with
    | prim p => exact primLaws.refl p h
    | product p => exact (productLaws L).refl p h
    | finArray p => exact (finArrayLaws L).refl p h
    | flexArray p => exact (flexArrayLaws L).refl p h
    | finMix p => exact (finMixLaws L).refl p h
    | flexMix p => exact (flexMixLaws L).refl p h
  symm s s' h := by
    cases s <;> cases s' <;> first | exact h.elim | skip
    · exact primLaws.symm _ _ h
    · exact (productLaws L).symm _ _ h
    · exact (finArrayLaws L).symm _ _ h
    · exact (flexArrayLaws L).symm _ _ h
    · exact (finMixLaws L).symm _ _ h
    · exact (flexMixLaws L).symm _ _ h
  trans s s' s'' h h' := by
    cases s <;> cases s' <;> first | exact h.elim | (cases s'' <;> first | exact h'.elim | skip)
    · exact primLaws.trans _ _ _ h h'
    · exact (productLaws L).trans _ _ _ h h'
    · exact (finArrayLaws L).trans _ _ _ h h'
    · exact (flexArrayLaws L).trans _ _ _ h h'
    · exact (finMixLaws L).trans _ _ _ h h'
    · exact (flexMixLaws L).trans _ _ _ h h'
  inv s s' h := by
    cases s <;> cases s' <;> first | exact h.elim | skip
    · exact primLaws.inv _ _ h
    · exact (productLaws L).inv _ _ h
    · exact (finArrayLaws L).inv _ _ h
    · exact (flexArrayLaws L).inv _ _ h
    · exact (finMixLaws L).inv _ _ h
    · exact (flexMixLaws L).inv _ _ h
  attrs_E s s' h := by
    cases s <;> cases s' <;> first | exact h.elim | skip
    · exact primLaws.attrs_E _ _ h
    · exact (productLaws L).attrs_E _ _ h
    · exact (finArrayLaws L).attrs_E _ _ h
    · exact (flexArrayLaws L).attrs_E _ _ h
    · exact (finMixLaws L).attrs_E _ _ h
    · exact (flexMixLaws L).attrs_E _ _ h
  score_E s s' h := by
    cases s <;> cases s' <;> first | exact h.elim | skip
    · exact primLaws.score_E _ _ h
    · exact (productLaws L).score_E _ _ h
    · exact (finArrayLaws L).score_E _ _ h
    · exact (flexArrayLaws L).score_E _ _ h
    · exact (finMixLaws L).score_E _ _ h
    · exact (flexMixLaws L).score_E _ _ h
  observe r o i s s' g h := by
    cases s <;> cases s' <;> first | exact h.elim | skip
    · exact primLaws.observe r o i _ _ g h
    · exact (productLaws L).observe r o i _ _ g h
    · exact (finArrayLaws L).observe r o i _ _ g h
    · exact (flexArrayLaws L).observe r o i _ _ g h
    · exact (finMixLaws L).observe r o i _ _ g h
    · exact (flexMixLaws L).observe r o i _ _ g h
  unobserve r s s' g h := by
    cases s <;> cases s' <;> first | exact h.elim | skip
    · exact primLaws.unobserve r _ _ g h
    · exact (productLaws L).unobserve r _ _ g h
    · exact (finArrayLaws L).unobserve r _ _ g h
    · exact (flexArrayLaws L).unobserve r _ _ g h
    · exact (finMixLaws L).unobserve r _ _ g h
    · exact (flexMixLaws L).unobserve r _ _ g h
  logpdf r t c i s s' g h := by
    cases s <;> cases s' <;> first | exact h.elim | skip
    · exact primLaws.logpdf r t c i _ _ g h
    · exact (productLaws L).logpdf r t c i _ _ g h
    · exact (finArrayLaws L).logpdf r t c i _ _ g h
    · exact (flexArrayLaws L).logpdf r t c i _ _ g h
    · exact (finMixLaws L).logpdf r t c i _ _ g h
    · exact (flexMixLaws L).logpdf r t c i _ _ g h
  simulate r t c i N s s' g h := by
    cases s <;> cases s' <;> first | exact h.elim | skip
    · exact primLaws.simulate r t c i N _ _ g h
    · exact (productLaws L).simulate r t c i N _ _ g h
    · exact (finArrayLaws L).simulate r t c i N _ _ g h
    · exact (flexArrayLaws L).simulate r t c i N _ _ g h
    · exact (finMixLaws L).simulate r t c i N _ _ g h
    · exact (flexMixLaws L).simulate r t c i N _ _ g h
  observe_attrs r o i s g h := by
    cases s
    · exact primLaws.observe_attrs r o i _ g h
    · exact (productLaws L).observe_attrs r o i _ g h
    · exact (finArrayLaws L).observe_attrs r o i _ g h
    · exact (flexArrayLaws L).observe_attrs r o i _ g h
    · exact (finMixLaws L).observe_attrs r o i _ g h
    · exact (flexMixLaws L).observe_attrs r o i _ g h
  unobserve_attrs r s g h := by
    cases s
    · exact primLaws.unobserve_attrs r _ g h
    · exact (productLaws L).unobserve_attrs r _ g h
    · exact (finArrayLaws L).unobserve_attrs r _ g h
    · exact (flexArrayLaws L).unobserve_attrs r _ g h
    · exact (finMixLaws L).unobserve_attrs r _ g h
    · exact (flexMixLaws L).unobserve_attrs r _ g h
  observe_scored r o i s g h hs := by
    cases s
    · exact primLaws.observe_scored r o i _ g h hs
    · exact (productLaws L).observe_scored r o i _ g h hs
    · exact (finArrayLaws L).observe_scored r o i _ g h hs
    · exact (flexArrayLaws L).observe_scored r o i _ g h hs
    · exact (finMixLaws L).observe_scored r o i _ g h hs
    · exact (flexMixLaws L).observe_scored r o i _ g h hs
  unobserve_scored r s g h hs := by
    cases s
    · exact primLaws.unobserve_scored r _ g h hs
    · exact (productLaws L).unobserve_scored r _ g h hs
    · exact (finArrayLaws L).unobserve_scored r _ g h hs
    · exact (flexArrayLaws L).unobserve_scored r _ g h hs
    · exact (finMixLaws L).unobserve_scored r _ g h hs
    · exact (flexMixLaws L).unobserve_scored r _ g h hs
  unobserve_noDraw r s g g' := by
    have aux : ∀ {T : Type} (f : T → Node S) (m : Py (T × Rng) (Dict Var Val × Dict Var Val)) (t),
        Py.NoDraw m → (Py.inside f m (t, g)).1 = (Py.inside f m (t, g')).1 ∧
          (Py.inside f m (t, g)).2.1 = (Py.inside f m (t, g')).2.1 ∧
          (Py.inside f m (t, g)).2.2 = g := by
      intro T f m t h
      obtain ⟨h1, h2, h3⟩ := h t g g'
      exact ⟨h1, congrArg f h2, h3⟩
    cases s
    · exact aux _ _ _ (primLaws.unobserve_noDraw r)
    · exact aux _ _ _ ((productLaws L).unobserve_noDraw r)
    · exact aux _ _ _ ((finArrayLaws L).unobserve_noDraw r)
    · exact aux _ _ _ ((flexArrayLaws L).unobserve_noDraw r)
    · exact aux _ _ _ ((finMixLaws L).unobserve_noDraw r)
    · exact aux _ _ _ ((flexMixLaws L).unobserve_noDraw r)
  logpdf_noDraw r t c i s g g' := by
    have aux : ∀ {T : Type} (f : T → Node S) (m : Py (T × Rng) Fl) (t),
        Py.NoDraw m → (Py.inside f m (t, g)).1 = (Py.inside f m (t, g')).1 ∧
          (Py.inside f m (t, g)).2.1 = (Py.inside f m (t, g')).2.1 ∧
          (Py.inside f m (t, g)).2.2 = g := by
      intro T f m t h
      obtain ⟨h1, h2, h3⟩ := h t g g'
      exact ⟨h1, congrArg f h2, h3⟩
    cases s
    · exact aux _ _ _ (primLaws.logpdf_noDraw r t c i)
    · exact aux _ _ _ ((productLaws L).logpdf_noDraw r t c i)
    · exact aux _ _ _ ((finArrayLaws L).logpdf_noDraw r t c i)
    · exact aux _ _ _ ((flexArrayLaws L).logpdf_noDraw r t c i)
    · exact aux _ _ _ ((finMixLaws L).logpdf_noDraw r t c i)
    · exact aux _ _ _ ((flexMixLaws L).logpdf_noDraw r t c i)
  logpdf_keeps r t c i s g h := by
    cases s
    · exact primLaws.logpdf_keeps r t c i _ g h
    · exact (productLaws L).logpdf_keeps r t c i _ g h
    · exact (finArrayLaws L).logpdf_keeps r t c i _ g h
    · exact (flexArrayLaws L).logpdf_keeps r t c i _ g h
    · exact (finMixLaws L).logpdf_keeps r t c i _ g h
    · exact (flexMixLaws L).logpdf_keeps r t c i _ g h
  simulate_keeps r t c i N s g h := by
    cases s
    · exact primLaws.simulate_keeps r t c i N _ g h
    · exact (productLaws L).simulate_keeps r t c i N _ g h
    · exact (finArrayLaws L).simulate_keeps r t c i N _ g h
    · exact (flexArrayLaws L).simulate_keeps r t c i N _ g h
    · exact (finMixLaws L).simulate_keeps r t c i N _ g h
    · exact (flexMixLaws L).simulate_keeps r t c i N _ g h
  clone s h := by
    cases s with
    | prim p =>
      have := primLaws.clone p h
      have h2 : (nodeI I).clone (.prim p) = (primI.clone p).map .prim := by cases p <;> rfl
      rw [h2, this]; rfl
    | product p =>
      have := (productLaws L).clone p h
      have h2 : (nodeI I).clone (.product p) = ((productI I).clone p).map .product := rfl
      rw [h2, this]; rfl
    | finArray p =>
      have := (finArrayLaws L).clone p h
      have h2 : (nodeI I).clone (.finArray p) = ((finArrayI I).clone p).map .finArray := rfl
      rw [h2, this]; rfl
    | flexArray p =>
      have := (flexArrayLaws L).clone p h
      have h2 : (nodeI I).clone (.flexArray p) = ((flexArrayI I).clone p).map .flexArray := rfl
      rw [h2, this]; rfl
    | finMix p =>
      have := (finMixLaws L).clone p h
      have h2 : (nodeI I).clone (.finMix p) = ((finMixI I).clone p).map .finMix := rfl
      rw [h2, this]; rfl
    | flexMix p =>
      have := (flexMixLaws L).clone p h
      have h2 : (nodeI I).clone (.flexMix p) = ((flexMixI I).clone p).map .flexMix := rfl
      rw [h2, this]; rfl
  strip s h := by
    cases s
    · exact primLaws.strip _ h
    · exact (productLaws L).strip _ h
    · exact (finArrayLaws L).strip _ h
    · exact (flexArrayLaws L).strip _ h
    · exact (finMixLaws L).strip _ h
    · exact (flexMixLaws L).strip _ h

/-- Semantics of `Cgpm n`. -/
noncomputable def cgpmSem : (n : Nat) → Sem (Cgpm n)
  | 0 => primSem
  | n + 1 => nodeSem (cgpmI n) (cgpmSem n)

theorem cgpmLaws : (n : Nat) → Laws (cgpmI n) (cgpmSem n)
  | 0 => primLaws
  | n + 1 => nodeLaws (cgpmLaws n)

end Cgpm2
