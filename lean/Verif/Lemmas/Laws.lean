import Verif.Lemmas.Rel

/-!
# What every class of CGPM satisfies (helpers)

`Sem` gives, for a class `S`, its invariant, the copy made by `from_metadata(to_metadata())`,
and the relation "answers every call in the same way".  `Laws` says that these are what their
names promise; the instances for the classes of the repository are proved one file each.
-/

namespace Cgpm2

/-- The structure of a CGPM: its primitives (outputs, class, number of categories) and how they are
put together. -/
inductive Shape
  | prim (outputs : List Var) (kind : Prim.Kind) (card : Nat)
  | product (parts : List Shape)
  | array (parts : List Shape)
  | mix (divider array : Shape)

/-- The number of parts. -/
def Shape.count : Shape → Nat
  | .array l => l.length
  | _ => 0

structure Sem (S : Type) where
  /-- the representation invariant -/
  Inv : S → Prop
  /-- the result of serialising and rebuilding -/
  strip : S → S
  /-- the two objects answer every call in the same way -/
  E : S → S → Prop
  /-- the structure -/
  shape : S → Shape

variable {S : Type}

/-- The attributes no call changes. -/
def attrs (I : Iface S) (M : Sem S) (s : S) : List Var × List Var × Shape :=
  (I.outputs s, I.inputs s, M.shape s)

/-- `logpdf_score` returns a number. -/
def Scored (I : Iface S) (s : S) : Prop := ∃ x : ℝ, I.logpdfScore s = .ok (.fin x)

structure Laws (I : Iface S) (M : Sem S) : Prop where
  refl : ∀ s, M.Inv s → M.E s s
  symm : ∀ s s', M.E s s' → M.E s' s
  trans : ∀ a b c, M.E a b → M.E b c → M.E a c
  inv : ∀ s s', M.E s s' → M.Inv s
  attrs_E : ∀ s s', M.E s s' → attrs I M s = attrs I M s'
  score_E : ∀ s s', M.E s s' → I.logpdfScore s = I.logpdfScore s'
  observe : ∀ r o i, Py.Rel M.E (I.observe r o i) (I.observe r o i)
  unobserve : ∀ r, Py.Rel M.E (I.unobserve r) (I.unobserve r)
  logpdf : ∀ r t c i, Py.Rel M.E (I.logpdf r t c i) (I.logpdf r t c i)
  simulate : ∀ r t c i N, Py.Rel M.E (I.simulate r t c i N) (I.simulate r t c i N)
  observe_attrs : ∀ r o i s g, M.Inv s → attrs I M (I.observe r o i (s, g)).2.1 = attrs I M s
  unobserve_attrs : ∀ r s g, M.Inv s → attrs I M (I.unobserve r (s, g)).2.1 = attrs I M s
  observe_scored : ∀ r o i s g, M.Inv s → Scored I s → Scored I (I.observe r o i (s, g)).2.1
  unobserve_scored : ∀ r s g, M.Inv s → Scored I s → Scored I (I.unobserve r (s, g)).2.1
  unobserve_noDraw : ∀ r, Py.NoDraw (I.unobserve r)
  logpdf_noDraw : ∀ r t c i, Py.NoDraw (I.logpdf r t c i)
  logpdf_keeps : ∀ r t c i, Py.Keeps M.E (I.logpdf r t c i)
  simulate_keeps : ∀ r t c i N, Py.Keeps M.E (I.simulate r t c i N)
  clone : ∀ s, M.Inv s → I.clone s = .ok (M.strip s)
  strip : ∀ s, M.Inv s → M.E s (M.strip s)

namespace Laws
variable {I : Iface S} {M : Sem S} (L : Laws I M)
include L

theorem inv' {s s' : S} (h : M.E s s') : M.Inv s' := L.inv _ _ (L.symm _ _ h)
theorem refl_right (s s' : S) (h : M.E s s') : M.E s' s' := L.refl _ (L.inv' h)
theorem outputs_E {s s' : S} (h : M.E s s') : I.outputs s = I.outputs s' :=
  congrArg Prod.fst (L.attrs_E _ _ h)
theorem inputs_E {s s' : S} (h : M.E s s') : I.inputs s = I.inputs s' :=
  congrArg (fun x => x.2.1) (L.attrs_E _ _ h)
theorem shape_E {s s' : S} (h : M.E s s') : M.shape s = M.shape s' :=
  congrArg (fun x => x.2.2) (L.attrs_E _ _ h)
theorem shape_observe {s : S} (h : M.Inv s) (r o i g) :
    M.shape (I.observe r o i (s, g)).2.1 = M.shape s :=
  congrArg (fun x => x.2.2) (L.observe_attrs r o i s g h)
theorem shape_unobserve {s : S} (h : M.Inv s) (r g) :
    M.shape (I.unobserve r (s, g)).2.1 = M.shape s :=
  congrArg (fun x => x.2.2) (L.unobserve_attrs r s g h)
theorem inv_strip {s : S} (h : M.Inv s) : M.Inv (M.strip s) := L.inv' (L.strip s h)
theorem scored_E {s s' : S} (h : M.E s s') : Scored I s ↔ Scored I s' := by
  unfold Scored; rw [L.score_E _ _ h]

theorem inv_observe {s : S} (h : M.Inv s) (r o i g) : M.Inv (I.observe r o i (s, g)).2.1 :=
  L.inv _ _ (L.observe r o i s s g (L.refl s h)).2.1
theorem inv_unobserve {s : S} (h : M.Inv s) (r g) : M.Inv (I.unobserve r (s, g)).2.1 :=
  L.inv _ _ (L.unobserve r s s g (L.refl s h)).2.1
theorem E_logpdf {s : S} (h : M.Inv s) (r t c i g) : M.E s (I.logpdf r t c i (s, g)).2.1 :=
  L.logpdf_keeps r t c i s g (L.refl s h)
theorem E_simulate {s : S} (h : M.Inv s) (r t c i N g) :
    M.E s (I.simulate r t c i N (s, g)).2.1 :=
  L.simulate_keeps r t c i N s g (L.refl s h)

end Laws
end Cgpm2
