import Verif.Lemmas.PrimLaws
import Verif.Lemmas.FlexLaws

/-!
# Row mixtures satisfy the laws (helpers)
-/

namespace Cgpm2
open Spec

variable {A : Type}

/-- The interface shared by the two classes of row mixtures. -/
noncomputable def rowMixI (AI : Iface A) (toM : RowMix A → Metadata)
    (fromM : Metadata → Except Err (RowMix A)) : Iface (RowMix A) where
  outputs := RowMix.outputs AI
  inputs := RowMix.inputs AI
  observe := RowMix.observe AI
  unobserve := RowMix.unobserve AI
  logpdf := RowMix.logpdf AI
  simulate := RowMix.simulate AI
  logpdfScore := RowMix.logpdfScore AI
  support _ := .error .attributeError
  toMetadata := toM
  fromMetadata := fromM

/-- Semantics of row mixtures; `X` is what the constructor checks. -/
def rowMixSem (MA : Sem A) (X : Prim → Nat → Prop) : Sem (RowMix A) where
  Inv m := m.rowDivide.Good ∧ MA.Inv m.array ∧ (Dict.keys m.rowidToComponent).Nodup ∧
    X m.rowDivide (MA.shape m.array).count
  strip m := ⟨m.rowDivide.clearParams, MA.strip m.array, m.rowidToComponent⟩
  E m n := (primSem.E m.rowDivide n.rowDivide ∧ MA.E m.array n.array ∧
    m.rowidToComponent = n.rowidToComponent) ∧ (Dict.keys m.rowidToComponent).Nodup ∧
    X m.rowDivide (MA.shape m.array).count
  shape m := .mix m.rowDivide.shape (MA.shape m.array)

/-- The constructor's check survives updates of the divider. -/
structure Stable (X : Prim → Nat → Prop) : Prop where
  E : ∀ d d' n, primSem.E d d' → X d n → X d' n
  observe : ∀ d n r o i, d.Good → X d n → X (Prim.observe r o i d).2 n
  unobserve : ∀ d n r, d.Good → X d n → X (Prim.unobserve r d).2 n

@[congr] theorem Py.assert_congr {T : Type} {p q : Prop} [Decidable p] [Decidable q] (h : p = q) :
    (Py.assert p : Py T Unit) = Py.assert q := by
  funext s
  simp only [Py.assert_apply, h]

namespace RowMix
variable {AI : Iface A} {MA : Sem A}

/-- Related divider, array and bookkeeping. -/
def E0 (MA : Sem A) (m n : RowMix A) : Prop :=
  primSem.E m.rowDivide n.rowDivide ∧ MA.E m.array n.array ∧ m.rowidToComponent = n.rowidToComponent

section
variable {m n : RowMix A}

theorem E0.outputs (h : E0 MA m n) : m.rowDivide.outputs = n.rowDivide.outputs :=
  primLaws.outputs_E h.1
theorem E0.indexer (h : E0 MA m n) : m.indexer = n.indexer := by
  rw [RowMix.indexer, RowMix.indexer, h.outputs]
theorem E0.inputsZ (h : E0 MA m n) : m.inputsZ = n.inputsZ := primLaws.inputs_E h.1
theorem E0.support (h : E0 MA m n) : m.rowDivide.support = n.rowDivide.support := by
  have := congrArg Prim.support h.1.2.2
  simpa only [Prim.clear_support] using this
theorem E0.logpdf (h : E0 MA m n) (r t c i) :
    m.rowDivide.logpdf r t c i = n.rowDivide.logpdf r t c i := by
  have := congrArg (fun p => p.logpdf r t c i) h.1.2.2
  simpa only [Prim.clear_logpdf] using this
theorem E0.simulate (h : E0 MA m n) (r t c i N) :
    m.rowDivide.simulate r t c i N = n.rowDivide.simulate r t c i N := by
  have := congrArg (fun p => p.simulate r t c i N) h.1.2.2
  simpa only [Prim.clear_simulate] using this

variable (LA : Laws AI MA)
include LA
theorem E0.outputsX (h : E0 MA m n) : m.outputsX AI = n.outputsX AI := LA.outputs_E h.2.1
theorem E0.inputsX (h : E0 MA m n) : m.inputsX AI = n.inputsX AI := by
  rw [RowMix.inputsX, RowMix.inputsX, LA.inputs_E h.2.1]
theorem E0.right (h : E0 MA m n) : E0 MA n n :=
  ⟨⟨h.1.2.1, h.1.2.1, rfl⟩, LA.refl_right _ _ h.2.1, rfl⟩
theorem E0.trans {a b c : RowMix A} (h : E0 MA a b) (h' : E0 MA b c) : E0 MA a c :=
  ⟨primLaws.trans _ _ _ h.1 h'.1, LA.trans _ _ _ h.2.1 h'.2.1, h.2.2.trans h'.2.2⟩
end

section Rel
variable (LA : Laws AI MA)

theorem rel_onArray {α : Type} {f : Py (A × Rng) α} (hf : Py.Rel MA.E f f) :
    Py.Rel (E0 MA) (onArray f) (onArray f) :=
  Py.Rel.onAttr (fun _ _ h => h.2.1) (fun _ _ _ _ h h' => ⟨h.1, h', h.2.2⟩) hf

theorem rel_onDivide {α : Type} {f : Py Prim α}
    (hf : Py.Rel (T := Rng) primSem.E (Py.onFst f) (Py.onFst f)) :
    Py.Rel (E0 MA) (onDivide f) (onDivide f) :=
  Py.Rel.onAttr (fun _ _ h => h.1) (fun _ _ _ _ h h' => ⟨h', h.2⟩) hf

include LA

theorem rel_logpdfOne (r t c i z) :
    Py.Rel (E0 MA) (logpdfOne AI r t c i z) (logpdfOne AI r t c i z) := by
  refine Py.Rel.get2 (fun m n g h => ?_) (fun m g h => ?_) fun _ _ h => h.right LA
  · simp only [h.outputsX LA, h.indexer]
  · dsimp only
    split
    · exact Py.Rel.pure _
    · exact rel_onArray (LA.logpdf _ _ _ _)

theorem rel_logpdfMarginal (r t c i) :
    Py.Rel (E0 MA) (logpdfMarginal AI r t c i) (logpdfMarginal AI r t c i) := by
  refine Py.Rel.get2 (fun m n g h => ?_) (fun m g h => ?_) fun _ _ h => h.right LA
  · simp only [h.support, h.indexer, h.inputsZ, h.logpdf]
  · exact (Py.Rel.lift _).bind fun _ => (Py.Rel.lift _).bind fun _ =>
      (Py.Rel.mapL (fun _ => rel_logpdfOne LA _ _ _ _ _) _).bind fun _ =>
      (Py.Rel.mapL (fun _ => rel_logpdfOne LA _ _ _ _ _) _).bind fun _ => Py.Rel.pure _

theorem rel_logpdfWith {recur : Dict Var Val → Py (RowMix A × Rng) Fl}
    (hr : ∀ c, Py.Rel (E0 MA) (recur c) (recur c)) (r t c i) :
    Py.Rel (E0 MA) (logpdfWith AI recur r t c i) (logpdfWith AI recur r t c i) := by
  refine Py.Rel.get2 (fun m n g h => ?_) (fun m g h => ?_) fun _ _ h => h.right LA
  · simp only [h.support, h.indexer, h.inputsZ, h.logpdf, h.2.2]
  · dsimp only
    split
    · exact (Py.Rel.assert _).bind fun _ => rel_logpdfOne LA _ _ _ _ _
    · split
      · refine (Py.Rel.lift _).bind fun _ => (rel_logpdfOne LA _ _ _ _ _).bind fun _ => ?_
        split
        · exact (hr _).bind fun _ => Py.Rel.pure _
        · exact Py.Rel.bind (Py.Rel.pure _) fun _ => Py.Rel.pure _
      · split
        · refine (Py.Rel.lift _).bind fun _ => ?_
          split
          · exact Py.Rel.throw _
          · exact (rel_logpdfOne LA _ _ _ _ _).bind fun _ =>
              (rel_logpdfOne LA _ _ _ _ _).bind fun _ => Py.Rel.pure _
        · exact rel_logpdfMarginal LA _ _ _ _

theorem rel_logpdf (r t c i) : Py.Rel (E0 MA) (logpdf AI r t c i) (logpdf AI r t c i) :=
  rel_logpdfWith LA (fun _ => rel_logpdfWith LA (fun _ => Py.Rel.throw _) _ _ _ _) _ _ _ _

theorem rel_simulateOne (r t c i N z) :
    Py.Rel (E0 MA) (simulateOne AI r t c i N z) (simulateOne AI r t c i N z) := by
  refine Py.Rel.get2 (fun m n g h => ?_) (fun m g h => ?_) fun _ _ h => h.right LA
  · simp only [h.outputsX LA, h.indexer]
  · dsimp only
    split
    · refine (rel_onArray (LA.simulate _ _ _ _ _)).bind fun s => ?_
      split
      · split
        · exact Py.Rel.pure _
        · exact Py.Rel.pure _
        · exact Py.Rel.throw _
        · exact Py.Rel.throw _
      · exact Py.Rel.pure _
    · refine Py.Rel.bind (Py.Rel.pure _) fun s => ?_
      split
      · split
        · exact Py.Rel.pure _
        · exact Py.Rel.pure _
        · exact Py.Rel.throw _
        · exact Py.Rel.throw _
      · exact Py.Rel.pure _

theorem rel_simulateFresh (r t c i N) :
    Py.Rel (E0 MA) (simulateFresh AI r t c i N) (simulateFresh AI r t c i N) := by
  refine Py.Rel.get2 (fun m n g h => ?_) (fun m g h => ?_) fun _ _ h => h.right LA
  · simp only [h.support, h.indexer]
  · refine (Py.Rel.lift _).bind fun _ => (Py.Rel.mapL (fun _ => rel_logpdf LA _ _ _ _) _).bind
      fun _ => (Py.Rel.onSnd _).bind fun _ => (Py.Rel.lift _).bind fun _ =>
      (Py.Rel.mapL (fun _ => rel_simulateOne LA _ _ _ _ _ _) _).bind fun _ =>
      (Py.Rel.lift _).bind fun _ => ?_
    split
    · split
      · exact Py.Rel.throw _
      · exact Py.Rel.pure _
    · exact Py.Rel.pure _

theorem rel_simulate (r t c i N) :
    Py.Rel (E0 MA) (simulate AI r t c i N) (simulate AI r t c i N) := by
  refine Py.Rel.get2 (fun m n g h => ?_) (fun m g h => ?_) fun _ _ h => h.right LA
  · simp only [h.support, h.indexer, h.2.2]
  · dsimp only
    split
    · exact (Py.Rel.assert _).bind fun _ => rel_simulateOne LA _ _ _ _ _ _
    · split
      · refine (Py.Rel.lift _).bind fun _ => ?_
        split
        · exact Py.Rel.throw _
        · exact rel_simulateOne LA _ _ _ _ _ _
      · exact rel_simulateFresh LA _ _ _ _ _

theorem rel_observe (r o i) : Py.Rel (E0 MA) (observe AI r o i) (observe AI r o i) := by
  refine Py.Rel.get2 (fun m n g h => ?_) (fun m g h => ?_) fun _ _ h => h.right LA
  · simp only [h.indexer, h.inputsZ, h.simulate, h.outputsX LA, h.inputsX LA, h.2.2]
  · dsimp only
    have hmod : ∀ z, Py.Rel (T := Rng) (E0 MA) (Py.modify fun st =>
        ({ st.1 with rowidToComponent := Dict.set st.1.rowidToComponent r z }, st.2))
        (Py.modify fun st =>
        ({ st.1 with rowidToComponent := Dict.set st.1.rowidToComponent r z }, st.2)) := by
      intro z
      refine Py.Rel.modify fun s s' g h => ⟨⟨h.1, h.2.1, ?_⟩, rfl⟩
      dsimp only
      rw [h.2.2]
    split
    · exact Py.Rel.bind (Py.Rel.pure _) fun _ => rel_onArray (LA.observe _ _ _)
    · split
      · exact Py.Rel.bind (Py.Rel.pure _) fun _ =>
          (rel_onDivide (primLaws.observe _ _ _)).bind fun _ => (Py.Rel.lift _).bind fun _ =>
          (hmod _).bind fun _ => Py.Rel.bind (Py.Rel.pure _) fun _ => rel_onArray (LA.observe _ _ _)
      · exact Py.Rel.bind (Py.Rel.onSnd _) fun _ => (Py.Rel.lift _).bind fun _ =>
          (rel_onDivide (primLaws.observe _ _ _)).bind fun _ => (Py.Rel.lift _).bind fun _ =>
          (hmod _).bind fun _ => Py.Rel.bind (Py.Rel.pure _) fun _ => rel_onArray (LA.observe _ _ _)

theorem rel_unobserve (r) : Py.Rel (E0 MA) (unobserve AI r) (unobserve AI r) := by
  refine (rel_onDivide (primLaws.unobserve _)).bind fun _ =>
    (rel_onArray (LA.unobserve _)).bind fun _ =>
    Py.Rel.get2 (fun m n g h => ?_) (fun m g h => ?_) fun _ _ h => h.right LA
  · simp only [h.2.2]
  · refine (Py.Rel.lift _).bind fun _ => Py.Rel.bind (Py.Rel.modify ?_) fun _ => Py.Rel.pure _
    intro s s' g h
    refine ⟨⟨h.1, h.2.1, ?_⟩, rfl⟩
    dsimp only
    rw [h.2.2]

end Rel

section Keeps
variable (LA : Laws AI MA)

theorem keeps_onArray {α : Type} {f : Py (A × Rng) α} (hf : Py.Keeps MA.E f) :
    Py.Keeps (E0 MA) (onArray f) :=
  Py.Keeps.onAttr (fun _ h => h.2.1) (fun _ _ h h' => ⟨h.1, h', h.2.2⟩) hf

include LA

theorem keeps_bind {α β : Type} {f : Py (RowMix A × Rng) α} {k : α → Py (RowMix A × Rng) β}
    (hf : Py.Keeps (E0 MA) f) (hk : ∀ a, Py.Keeps (E0 MA) (k a)) : Py.Keeps (E0 MA) (f >>= k) :=
  hf.bind (fun _ _ _ h h' => h.trans LA h') (fun _ _ h => h.right LA) hk

theorem keeps_mapL {α β : Type} {f : α → Py (RowMix A × Rng) β}
    (hf : ∀ a, Py.Keeps (E0 MA) (f a)) (l : List α) : Py.Keeps (E0 MA) (Py.mapL f l) :=
  Py.Keeps.mapL (fun _ _ _ h h' => h.trans LA h') (fun _ _ h => h.right LA) hf l

omit LA in
theorem keeps_get {α : Type} {f : RowMix A × Rng → Py (RowMix A × Rng) α}
    (h : ∀ st, Py.Keeps (E0 MA) (f st)) : Py.Keeps (E0 MA) (Py.get >>= f) :=
  Py.Keeps.get fun s g hs => h (s, g) s g hs

theorem keeps_logpdfOne (r t c i z) : Py.Keeps (E0 MA) (logpdfOne AI r t c i z) := by
  refine keeps_get fun st => ?_
  dsimp only
  split
  · exact Py.Keeps.pure _
  · exact keeps_onArray (LA.logpdf_keeps _ _ _ _)

theorem keeps_logpdfMarginal (r t c i) : Py.Keeps (E0 MA) (logpdfMarginal AI r t c i) :=
  keeps_get fun _ => keeps_bind LA (Py.Keeps.lift _) fun _ =>
    keeps_bind LA (Py.Keeps.lift _) fun _ =>
    keeps_bind LA (keeps_mapL LA (fun _ => keeps_logpdfOne LA _ _ _ _ _) _) fun _ =>
    keeps_bind LA (keeps_mapL LA (fun _ => keeps_logpdfOne LA _ _ _ _ _) _) fun _ =>
    Py.Keeps.pure _

theorem keeps_logpdfWith {recur : Dict Var Val → Py (RowMix A × Rng) Fl}
    (hr : ∀ c, Py.Keeps (E0 MA) (recur c)) (r t c i) :
    Py.Keeps (E0 MA) (logpdfWith AI recur r t c i) := by
  refine keeps_get fun st => ?_
  dsimp only
  split
  · exact keeps_bind LA (Py.Keeps.assert _) fun _ => keeps_logpdfOne LA _ _ _ _ _
  · split
    · refine keeps_bind LA (Py.Keeps.lift _) fun _ => keeps_bind LA (keeps_logpdfOne LA _ _ _ _ _)
        fun _ => ?_
      split
      · exact keeps_bind LA (hr _) fun _ => Py.Keeps.pure _
      · exact keeps_bind LA (Py.Keeps.pure _) fun _ => Py.Keeps.pure _
    · split
      · refine keeps_bind LA (Py.Keeps.lift _) fun _ => ?_
        split
        · exact Py.Keeps.throw _
        · exact keeps_bind LA (keeps_logpdfOne LA _ _ _ _ _) fun _ =>
            keeps_bind LA (keeps_logpdfOne LA _ _ _ _ _) fun _ => Py.Keeps.pure _
      · exact keeps_logpdfMarginal LA _ _ _ _

theorem keeps_logpdf (r t c i) : Py.Keeps (E0 MA) (logpdf AI r t c i) :=
  keeps_logpdfWith LA (fun _ => keeps_logpdfWith LA (fun _ => Py.Keeps.throw _) _ _ _ _) _ _ _ _

theorem keeps_simulateOne (r t c i N z) : Py.Keeps (E0 MA) (simulateOne AI r t c i N z) := by
  refine keeps_get fun st => ?_
  dsimp only
  split
  · refine keeps_bind LA (keeps_onArray (LA.simulate_keeps _ _ _ _ _)) fun s => ?_
    split
    · split
      · exact Py.Keeps.pure _
      · exact Py.Keeps.pure _
      · exact Py.Keeps.throw _
      · exact Py.Keeps.throw _
    · exact Py.Keeps.pure _
  · refine keeps_bind LA (Py.Keeps.pure _) fun s => ?_
    split
    · split
      · exact Py.Keeps.pure _
      · exact Py.Keeps.pure _
      · exact Py.Keeps.throw _
      · exact Py.Keeps.throw _
    · exact Py.Keeps.pure _

theorem keeps_simulateFresh (r t c i N) : Py.Keeps (E0 MA) (simulateFresh AI r t c i N) := by
  refine keeps_get fun st => ?_
  refine keeps_bind LA (Py.Keeps.lift _) fun _ =>
    keeps_bind LA (keeps_mapL LA (fun _ => keeps_logpdf LA _ _ _ _) _)
    fun _ => keeps_bind LA (Py.Keeps.onSnd _) fun _ => keeps_bind LA (Py.Keeps.lift _) fun _ =>
    keeps_bind LA (keeps_mapL LA (fun _ => keeps_simulateOne LA _ _ _ _ _ _) _) fun _ =>
    keeps_bind LA (Py.Keeps.lift _) fun _ => ?_
  split
  · split
    · exact Py.Keeps.throw _
    · exact Py.Keeps.pure _
  · exact Py.Keeps.pure _

theorem keeps_simulate (r t c i N) : Py.Keeps (E0 MA) (simulate AI r t c i N) := by
  refine keeps_get fun st => ?_
  dsimp only
  split
  · exact keeps_bind LA (Py.Keeps.assert _) fun _ => keeps_simulateOne LA _ _ _ _ _ _
  · split
    · refine keeps_bind LA (Py.Keeps.lift _) fun _ => ?_
      split
      · exact Py.Keeps.throw _
      · exact keeps_simulateOne LA _ _ _ _ _ _
    · exact keeps_simulateFresh LA _ _ _ _ _

end Keeps

section NoDraw
variable (LA : Laws AI MA)

theorem noDraw_get {α : Type} {f : RowMix A × Rng → Py (RowMix A × Rng) α}
    (h1 : ∀ s g g', f (s, g) = f (s, g')) (h : ∀ st, Py.NoDraw (f st)) :
    Py.NoDraw (Py.get >>= f) :=
  Py.NoDraw.get fun s g g' => by rw [h1 s g' g]; exact h (s, g) s g g'

theorem noDraw_onDivide {α : Type} (f : Py Prim α) : Py.NoDraw (onDivide (A := A) f) :=
  Py.NoDraw.onAttr fun _ _ _ => ⟨rfl, rfl, rfl⟩

include LA

theorem noDraw_logpdfOne (r t c i z) : Py.NoDraw (logpdfOne AI r t c i z) := by
  refine noDraw_get (fun _ _ _ => rfl) fun st => ?_
  dsimp only
  split
  · exact Py.NoDraw.pure _
  · exact (LA.logpdf_noDraw _ _ _ _).onAttr

theorem noDraw_logpdfWith {recur : Dict Var Val → Py (RowMix A × Rng) Fl}
    (hr : ∀ c, Py.NoDraw (recur c)) (r t c i) : Py.NoDraw (logpdfWith AI recur r t c i) := by
  refine noDraw_get (fun _ _ _ => rfl) fun st => ?_
  dsimp only
  split
  · exact (Py.NoDraw.assert _).bind fun _ => noDraw_logpdfOne LA _ _ _ _ _
  · split
    · refine (Py.NoDraw.lift _).bind fun _ => (noDraw_logpdfOne LA _ _ _ _ _).bind
        fun _ => ?_
      split
      · exact (hr _).bind fun _ => Py.NoDraw.pure _
      · exact Py.NoDraw.bind (Py.NoDraw.pure _) fun _ => Py.NoDraw.pure _
    · split
      · refine (Py.NoDraw.lift _).bind fun _ => ?_
        split
        · exact Py.NoDraw.throw _
        · exact (noDraw_logpdfOne LA _ _ _ _ _).bind fun _ =>
            (noDraw_logpdfOne LA _ _ _ _ _).bind fun _ => Py.NoDraw.pure _
      · exact noDraw_get (fun _ _ _ => rfl) fun st => (Py.NoDraw.lift _).bind fun _ =>
          (Py.NoDraw.lift _).bind fun _ =>
          (Py.NoDraw.mapL (fun _ => noDraw_logpdfOne LA _ _ _ _ _) _).bind fun _ =>
          (Py.NoDraw.mapL (fun _ => noDraw_logpdfOne LA _ _ _ _ _) _).bind fun _ => Py.NoDraw.pure _

theorem noDraw_logpdf (r t c i) : Py.NoDraw (logpdf AI r t c i) :=
  noDraw_logpdfWith LA (fun _ => noDraw_logpdfWith LA (fun _ => Py.NoDraw.throw _) _ _ _ _) _ _ _ _

theorem noDraw_unobserve (r) : Py.NoDraw (unobserve AI r) :=
  (noDraw_onDivide _).bind fun _ => (Py.NoDraw.onAttr (LA.unobserve_noDraw _)).bind fun _ =>
    noDraw_get (fun _ _ _ => rfl) fun _ => (Py.NoDraw.lift _).bind fun _ =>
    Py.NoDraw.bind (fun _ _ _ => ⟨rfl, rfl, rfl⟩) fun _ => Py.NoDraw.pure _

end NoDraw

/-- What is preserved by an update. -/
def Fine (AI : Iface A) (MA : Sem A) (X : Prim → Nat → Prop) (o i : List Var) (w : Shape)
    (a : List Var × List Var × Shape) (σ : Prop) (m : RowMix A) : Prop :=
  (rowMixSem MA X).Inv m ∧ (m.rowDivide.outputs = o ∧ m.rowDivide.inputs = i ∧ m.rowDivide.shape = w) ∧
    attrs AI MA m.array = a ∧ (σ → Scored AI m.array)

section Pres
variable {X : Prim → Nat → Prop} {o i : List Var} {w : Shape} {a : List Var × List Var × Shape} {σ : Prop}

theorem pres_onArray {α : Type} {f : Py (A × Rng) α} (h1 : ∀ s g, MA.Inv s → MA.Inv (f (s, g)).2.1)
    (h2 : ∀ s g, MA.Inv s → attrs AI MA (f (s, g)).2.1 = attrs AI MA s)
    (h3 : ∀ s g, MA.Inv s → Scored AI s → Scored AI (f (s, g)).2.1) :
    Py.Pres (Fine AI MA X o i w a σ) (onArray f) := by
  rintro m g ⟨⟨k1, k2, k3, k4⟩, k5, k6, k7⟩
  have ha := h2 m.array g k2
  refine ⟨⟨k1, h1 _ _ k2, k3, ?_⟩, k5, ?_, fun hσ => h3 _ _ k2 (k7 hσ)⟩
  · change X m.rowDivide (MA.shape (f (m.array, g)).2.1).count
    have : MA.shape (f (m.array, g)).2.1 = MA.shape m.array := congrArg (fun x => x.2.2) ha
    rw [this]; exact k4
  · exact ha.trans k6

theorem pres_onDivide {α : Type} {f : Py Prim α} (h1 : ∀ d, d.Good → (f d).2.Good)
    (h2 : ∀ d n, d.Good → X d n → X (f d).2 n)
    (h3 : ∀ d, d.Good → (f d).2.outputs = d.outputs ∧ (f d).2.inputs = d.inputs ∧
      (f d).2.shape = d.shape) :
    Py.Pres (Fine AI MA X o i w a σ) (onDivide f) := by
  rintro m g ⟨⟨k1, k2, k3, k4⟩, k5, k6⟩
  exact ⟨⟨h1 _ k1, k2, k3, h2 _ _ k1 k4⟩,
    ⟨(h3 _ k1).1.trans k5.1, (h3 _ k1).2.1.trans k5.2.1, (h3 _ k1).2.2.trans k5.2.2⟩, k6⟩

variable (LA : Laws AI MA) (hX : Stable X)
include LA hX

theorem pres_observe (r ob ins) : Py.Pres (Fine AI MA X o i w a σ) (observe AI r ob ins) := by
  refine Py.Pres.get fun m g _ => ?_
  dsimp only
  have harr : ∀ ob ins, Py.Pres (Fine AI MA X o i w a σ) (onArray (AI.observe r ob ins)) :=
    fun _ _ => pres_onArray (fun _ _ h => LA.inv_observe h ..)
      (fun _ _ h => LA.observe_attrs _ _ _ _ _ h) (fun _ _ h => LA.observe_scored _ _ _ _ _ h)
  have hdiv : ∀ c ins, Py.Pres (Fine AI MA X o i w a σ) (onDivide (Prim.observe r c ins)) :=
    fun _ _ => pres_onDivide (fun _ h => h.observe _ _ _)
      (fun _ _ h hx => hX.observe _ _ _ _ _ h hx) (fun _ h => ⟨(Prim.outputs_observe h _ _ _).1,
        (Prim.outputs_observe h _ _ _).2, Prim.shape_observe h _ _ _⟩)
  have hmod : ∀ z, Py.Pres (T := Rng) (Fine AI MA X o i w a σ) (Py.modify fun st =>
      ({ st.1 with rowidToComponent := Dict.set st.1.rowidToComponent r z }, st.2)) := by
    intro z
    refine Py.Pres.modify fun s g h => ?_
    exact ⟨⟨h.1.1, h.1.2.1, Dict.nodup_keys_set _ _ _ h.1.2.2.1, h.1.2.2.2⟩, h.2⟩
  split
  · exact Py.Pres.bind (Py.Pres.pure _ _) fun _ => harr _ _
  · split
    · exact Py.Pres.bind (Py.Pres.pure _ _) fun _ => (hdiv _ _).bind fun _ =>
        (Py.Pres.lift _ _).bind fun _ => (hmod _).bind fun _ =>
        Py.Pres.bind (Py.Pres.pure _ _) fun _ => harr _ _
    · exact Py.Pres.bind (Py.Pres.onSnd _ _) fun _ => (Py.Pres.lift _ _).bind fun _ =>
        (hdiv _ _).bind fun _ =>
        (Py.Pres.lift _ _).bind fun _ => (hmod _).bind fun _ =>
        Py.Pres.bind (Py.Pres.pure _ _) fun _ => harr _ _

theorem pres_unobserve (r) : Py.Pres (Fine AI MA X o i w a σ) (unobserve AI r) := by
  refine (pres_onDivide (fun _ h => h.unobserve _)
      (fun _ _ h hx => hX.unobserve _ _ _ h hx)
      (fun _ h => ⟨(Prim.outputs_unobserve h _).1, (Prim.outputs_unobserve h _).2,
        Prim.shape_unobserve h _⟩)).bind fun _ =>
    (pres_onArray (fun _ _ h => LA.inv_unobserve h ..)
      (fun _ _ h => LA.unobserve_attrs _ _ _ h) (fun _ _ h => LA.unobserve_scored _ _ _ h)).bind
    fun _ => Py.Pres.get fun m g _ => (Py.Pres.lift _ _).bind fun _ =>
    Py.Pres.bind (Py.Pres.modify ?_) fun _ => Py.Pres.pure _ _
  intro s g h
  exact ⟨⟨h.1.1, h.1.2.1, Dict.nodup_keys_del _ _ h.1.2.2.1, h.1.2.2.2⟩, h.2⟩

end Pres

theorem Fine.attrs_eq {X o i w a σ toM fromM} {m n : RowMix A} (hm : Fine AI MA X o i w a σ m)
    (hn : Fine AI MA X o i w a σ n) :
    attrs (rowMixI AI toM fromM) (rowMixSem MA X) m =
      attrs (rowMixI AI toM fromM) (rowMixSem MA X) n := by
  have h : attrs AI MA m.array = attrs AI MA n.array := hm.2.2.1.trans hn.2.2.1.symm
  simp only [attrs, Prod.mk.injEq] at h
  simp only [attrs, rowMixI, outputs, inputs, outputsX, inputsX, inputsZ, rowMixSem, h.1, h.2.1, h.2.2,
    hm.2.1.1, hm.2.1.2.1, hm.2.1.2.2, hn.2.1.1, hn.2.1.2.1, hn.2.1.2.2]

theorem scored_iff {toM fromM} {m : RowMix A} (h : m.rowDivide.Good) :
    Scored (rowMixI AI toM fromM) m ↔ Scored AI m.array := by
  have hz := Prim.logpdfScore_eq h.1 h.2
  unfold Scored
  change (∃ x, logpdfScore AI m = _) ↔ _
  unfold logpdfScore
  rw [hz]
  rcases AI.logpdfScore m.array with e | y
  · simp [bind, Except.bind]
  · simp only [bind, Except.bind, pure, Except.pure, Except.ok.injEq]
    rw [Fl.add_fin_iff]
    constructor
    · exact fun h => h.2
    · exact fun h => ⟨⟨_, rfl⟩, h⟩

theorem rel_E {X α} (LA : Laws AI MA) {f : Py (RowMix A × Rng) α} (hf : Py.Rel (E0 MA) f f)
    (hp : ∀ m g, (rowMixSem MA X).Inv m → (rowMixSem MA X).Inv (f (m, g)).2.1) :
    Py.Rel (rowMixSem MA X).E f f := by
  rintro m n g ⟨h, hi⟩
  obtain ⟨h1, h2, h3⟩ := hf m n g h
  have := hp m g ⟨h.1.1, LA.inv _ _ h.2.1, hi⟩
  exact ⟨h1, ⟨h2, this.2.2⟩, h3⟩

theorem inv_of_E0 {X} (LA : Laws AI MA) (hX : Stable X) {m n : RowMix A} (h : E0 MA m n)
    (hm : (rowMixSem MA X).Inv m) : (rowMixSem MA X).Inv n := by
  refine ⟨h.1.2.1, LA.inv' h.2.1, h.2.2 ▸ hm.2.2.1, ?_⟩
  rw [← LA.shape_E h.2.1]
  exact hX.E _ _ _ h.1 hm.2.2.2

end RowMix

open RowMix in
theorem rowMixLaws {AI : Iface A} {MA : Sem A} (LA : Laws AI MA) {X : Prim → Nat → Prop}
    (hX : Stable X) (toM : RowMix A → Metadata) (fromM : Metadata → Except Err (RowMix A))
    (hclone : ∀ m, (rowMixSem MA X).Inv m → fromM (toM m) = .ok ((rowMixSem MA X).strip m)) :
    Laws (rowMixI AI toM fromM) (rowMixSem MA X) where
  refl m h := ⟨⟨primLaws.refl _ h.1, LA.refl _ h.2.1, rfl⟩, h.2.2⟩
  symm m n h := by
    have := inv_of_E0 LA hX h.1 ⟨h.1.1.1, LA.inv _ _ h.1.2.1, h.2⟩
    exact ⟨⟨primLaws.symm _ _ h.1.1, LA.symm _ _ h.1.2.1, h.1.2.2.symm⟩, this.2.2⟩
  trans a b c h h' := ⟨RowMix.E0.trans LA h.1 h'.1, h.2⟩
  inv m n h := ⟨h.1.1.1, LA.inv _ _ h.1.2.1, h.2⟩
  attrs_E m n h := by
    have h0 : E0 MA m n := h.1
    have h1 : m.rowDivide.shape = n.rowDivide.shape := primLaws.shape_E h0.1
    simp only [attrs, rowMixI, outputs, inputs, h0.outputs, h0.inputsZ, h0.outputsX LA,
      h0.inputsX LA, rowMixSem, h1, LA.shape_E h0.2.1]
  score_E m n h := by
    have h0 : E0 MA m n := h.1
    simp only [rowMixI, logpdfScore, LA.score_E _ _ h0.2.1]
    have : m.rowDivide.logpdfScore = n.rowDivide.logpdfScore := primLaws.score_E _ _ h0.1
    rw [this]
  observe r o i := rel_E LA (rel_observe LA r o i) fun m g h =>
    (pres_observe LA hX r o i m g ⟨h, ⟨rfl, rfl, rfl⟩, rfl, False.elim⟩).1
  unobserve r := rel_E LA (rel_unobserve LA r) fun m g h =>
    (pres_unobserve LA hX r m g ⟨h, ⟨rfl, rfl, rfl⟩, rfl, False.elim⟩).1
  logpdf r t c i := rel_E LA (rel_logpdf LA r t c i) fun m g h =>
    inv_of_E0 LA hX (keeps_logpdf LA r t c i m g
      ⟨primLaws.refl _ h.1, LA.refl _ h.2.1, rfl⟩) h
  simulate r t c i N := rel_E LA (rel_simulate LA r t c i N) fun m g h =>
    inv_of_E0 LA hX (keeps_simulate LA r t c i N m g
      ⟨primLaws.refl _ h.1, LA.refl _ h.2.1, rfl⟩) h
  observe_attrs r o i m g h :=
    (pres_observe LA hX r o i m g ⟨h, ⟨rfl, rfl, rfl⟩, rfl, False.elim⟩).attrs_eq
      ⟨h, ⟨rfl, rfl, rfl⟩, rfl, False.elim⟩
  unobserve_attrs r m g h :=
    (pres_unobserve LA hX r m g ⟨h, ⟨rfl, rfl, rfl⟩, rfl, False.elim⟩).attrs_eq
      ⟨h, ⟨rfl, rfl, rfl⟩, rfl, False.elim⟩
  observe_scored r o i m g h hs := by
    have := pres_observe (σ := True) LA hX r o i m g ⟨h, ⟨rfl, rfl, rfl⟩, rfl, fun _ =>
      (scored_iff h.1).1 hs⟩
    exact (scored_iff this.1.1).2 (this.2.2.2 trivial)
  unobserve_scored r m g h hs := by
    have := pres_unobserve (σ := True) LA hX r m g ⟨h, ⟨rfl, rfl, rfl⟩, rfl, fun _ =>
      (scored_iff h.1).1 hs⟩
    exact (scored_iff this.1.1).2 (this.2.2.2 trivial)
  unobserve_noDraw r := noDraw_unobserve LA r
  logpdf_noDraw r t c i := noDraw_logpdf LA r t c i
  logpdf_keeps r t c i m g h := ⟨keeps_logpdf LA r t c i m g h.1, h.2⟩
  simulate_keeps r t c i N m g h := ⟨keeps_simulate LA r t c i N m g h.1, h.2⟩
  clone m h := hclone m h
  strip m h := ⟨⟨primLaws.strip _ h.1, LA.strip _ h.2.1, rfl⟩, h.2.2⟩

/-- What the constructor of a finite mixture checks, for the dividers whose support does not
depend on the data. -/
def FinX (d : Prim) (n : Nat) : Prop :=
  (d.kind = .categorical ∨ d.kind = .bernoulli) ∧
    d.support = .ok ((List.range n).map fun k : Nat => (k : Int))

theorem Prim.support_add (p : Prim) (h : p.kind = .categorical ∨ p.kind = .bernoulli) (r v) :
    (p.add r v).support = p.support := by
  cases p <;> cases v <;> first | rfl | simp [Prim.kind] at h

theorem Prim.support_remove (p : Prim) (h : p.kind = .categorical ∨ p.kind = .bernoulli) (r v) :
    (p.remove r v).support = p.support := by
  cases p <;> cases v <;> first | rfl | simp [Prim.kind] at h

theorem stable_finX : Stable FinX where
  E d d' n h hx := by
    have h1 := congrArg Prim.kind h.2.2
    have h2 := congrArg Prim.support h.2.2
    simp only [Prim.clear_kind, Prim.clear_support] at h1 h2
    exact ⟨h1 ▸ hx.1, h2 ▸ hx.2⟩
  observe d n r o i h hx := by
    refine ⟨(Prim.kind_observe h r o i).symm ▸ hx.1, ?_⟩
    obtain ⟨x, hx'⟩ := h.1.out
    rcases Prim.observe_cases hx' r o i with ⟨e, he⟩ | ⟨v, _, _, _, _, he⟩ <;> rw [he]
    · exact hx.2
    · rw [Prim.support_add d hx.1]; exact hx.2
  unobserve d n r h hx := by
    refine ⟨(Prim.kind_unobserve h r).symm ▸ hx.1, ?_⟩
    obtain ⟨x, hx'⟩ := h.1.out
    by_cases hr : r ∈ Dict.keys d.data
    · obtain ⟨v, hv⟩ := Dict.exists_get?_of_mem_keys hr
      rw [Prim.unobserve_held h.1 hx' hv, Prim.support_remove d hx.1]; exact hx.2
    · rw [Prim.unobserve_absent hr]; exact hx.2

theorem stable_true : Stable fun _ _ => True := ⟨fun _ _ _ _ _ => trivial,
  fun _ _ _ _ _ _ _ => trivial, fun _ _ _ _ _ => trivial⟩

variable {S : Type}

/-- Semantics of finite row mixtures. -/
def finMixSem (M : Sem S) : Sem (FinMix S) := rowMixSem (finArraySem M) FinX

/-- Semantics of flexible row mixtures. -/
def flexMixSem (I : Iface S) (M : Sem S) : Sem (FlexMix S) :=
  rowMixSem (flexArraySem I M) fun _ _ => True

theorem finMixLaws {I : Iface S} {M : Sem S} (L : Laws I M) : Laws (finMixI I) (finMixSem M) := by
  refine rowMixLaws (finArrayLaws L) stable_finX (FinMix.toMetadata I) (FinMix.fromMetadata I) ?_
  intro m h
  obtain ⟨h1, h2, h3, h4, h5⟩ := h
  have e1 : Prim.fromMetadata m.rowDivide.toMetadata = .ok m.rowDivide.clearParams :=
    Prim.clone_eq h1.1
  have e2 : FinArray.fromMetadata I (FinArray.toMetadata I m.array) =
      .ok ((finArraySem M).strip m.array) := (finArrayLaws L).clone _ h2
  obtain ⟨x, hx⟩ := h1.1.out
  have e3 : FinMix.init m.rowDivide.clearParams ((finArraySem M).strip m.array).cgpms =
      .ok ⟨m.rowDivide.clearParams, ⟨((finArraySem M).strip m.array).cgpms, x, []⟩, []⟩ := by
    have hl : ((finArraySem M).strip m.array).cgpms.length = m.array.cgpms.length := by
      simp [finArraySem]
    have hne : ((finArraySem M).strip m.array).cgpms ≠ [] := by
      simpa [finArraySem] using h2.2.1
    have h6 : ((finArraySem M).shape m.array).count = m.array.cgpms.length := by
      simp [finArraySem, Shape.count]
    rw [h6] at h5
    unfold FinMix.init
    rw [Prim.clear_outputs, Prim.clear_support, hx, h5, hl]
    have : FinArray.init ((finArraySem M).strip m.array).cgpms x =
        .ok ⟨((finArraySem M).strip m.array).cgpms, x, []⟩ := by
      rcases hc : ((finArraySem M).strip m.array).cgpms with _ | ⟨c, l⟩
      · exact absurd hc hne
      · rfl
    simp only [List.length_singleton, ne_eq, not_true_eq_false, if_false, finArraySem, bind,
      Except.bind, pure, Except.pure, List.headD_cons] at this ⊢
    rw [this]
  simp only [FinMix.toMetadata, FinMix.fromMetadata, e1, e2, e3, bind, Except.bind, pure,
    Except.pure, Dict.update_nil_left _ h3]
  rfl

theorem flexMixLaws {I : Iface S} {M : Sem S} (L : Laws I M) :
    Laws (flexMixI I) (flexMixSem I M) := by
  refine rowMixLaws (flexArrayLaws L) stable_true (FlexMix.toMetadata I)
    (FlexMix.fromMetadata I) ?_
  intro m h
  obtain ⟨h1, h2, h3, -⟩ := h
  have e1 : Prim.fromMetadata m.rowDivide.toMetadata = .ok m.rowDivide.clearParams :=
    Prim.clone_eq h1.1
  have e2 : FlexArray.fromMetadata I (FlexArray.toMetadata I m.array) =
      .ok ((flexArraySem I M).strip m.array) := (flexArrayLaws L).clone _ h2
  obtain ⟨x, hx⟩ := h1.1.out
  have e3 : FlexMix.init m.rowDivide.clearParams ((flexArraySem I M).strip m.array).base =
      .ok ⟨m.rowDivide.clearParams, FlexArray.init ((flexArraySem I M).strip m.array).base x,
        []⟩ := by
    unfold FlexMix.init
    rw [Prim.clear_outputs, hx]
    rfl
  simp only [FlexMix.toMetadata, FlexMix.fromMetadata, e1, e2, e3, bind, Except.bind, pure,
    Except.pure, Dict.update_nil_left _ h3]
  rfl

end Cgpm2
