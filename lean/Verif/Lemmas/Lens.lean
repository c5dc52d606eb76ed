import Verif.Lemmas.Ergodic

/-!
# Moves that change one part of a state (helpers)
-/

namespace Cgpm2
open Spec MeasureTheory

variable {μ : Measure Draw} [IsProbabilityMeasure μ] {S V α : Type} {G : S → Prop} {R : S → S → Prop}
  {D : S → V → Prop} {E : V → V → Prop} {get : S → V} {put : S → V → S} {vs : List S}

/-- A part of a state, with the values `D s` it may be given in the state `s`. -/
structure Lens (G : S → Prop) (R : S → S → Prop) (D : S → V → Prop) (E : V → V → Prop) (get : S → V) (put : S → V → S) :
    Prop where
  own : ∀ s, G s → D s (get s)
  good : ∀ s v, G s → D s v → G (put s v)
  same : ∀ s s', G s → G s' → R s s' → E (get s) (get s')
  congr : ∀ s s' v v', G s → G s' → R s s' → D s v → D s' v' → E v v' → R (put s v) (put s' v')
  get_put : ∀ s v, G s → D s v → E (get (put s v)) v
  put_get : ∀ s, G s → R (put s (get s)) s
  put_put : ∀ s v v', G s → D s v → D s v' → R (put (put s v) v') (put s v')
  dom_put : ∀ s v v', G s → D s v → (D (put s v) v' ↔ D s v')
  dom : ∀ s s' v, G s → G s' → R s s' → (D s v ↔ D s' v)
  refl : ∀ v, E v v
  symm : ∀ v w, E v w → E w v
  trans : ∀ v w x, E v w → E w x → E v x

/-- The states agree outside the part. -/
def Fibre (R : S → S → Prop) (D : S → V → Prop) (get : S → V) (put : S → V → S) (s s' : S) : Prop :=
  D s (get s') ∧ R s' (put s (get s'))

open Classical in
/-- The values of the part in the representatives that agree with `s` outside it. -/
noncomputable def partsOf (R : S → S → Prop) (D : S → V → Prop) (get : S → V) (put : S → V → S) (vs : List S) (s : S) : List V :=
  (vs.filter fun s' => decide (Fibre R D get put s s')).map get

namespace Lens

theorem fibre_of (L : Lens G R D E get put) (hc : Classes G R vs) {s s' : S} (hs : G s) (hs' : G s') (h : R s s') :
    Fibre R D get put s s' := by
  have hd : D s (get s') := (L.dom s s' _ hs hs' h).2 (L.own s' hs')
  refine ⟨hd, hc.symm _ _ ?_⟩
  have h1 := L.congr s s _ _ hs hs (hc.refl s) hd (L.own s hs) (L.symm _ _ (L.same s s' hs hs' h))
  exact hc.trans _ _ _ (hc.trans _ _ _ h1 (L.put_get s hs)) h

theorem fibre_refl (L : Lens G R D E get put) (hc : Classes G R vs) {s : S} (hs : G s) : Fibre R D get put s s :=
  L.fibre_of hc hs hs (hc.refl s)

theorem fibre_dom (L : Lens G R D E get put) {s s' : S} (hs : G s) (hs' : G s') (h : Fibre R D get put s s') (v : V) :
    D s v ↔ D s' v :=
  (L.dom_put s _ v hs h.1).symm.trans (L.dom _ _ v hs' (L.good s _ hs h.1) h.2).symm

theorem fibre_put (L : Lens G R D E get put) (hc : Classes G R vs) {s s' : S} (hs : G s) (hs' : G s')
    (h : Fibre R D get put s s') {v : V} (hv : D s v) : R (put s' v) (put s v) :=
  hc.trans _ _ _ (L.congr _ _ v v hs' (L.good s _ hs h.1) h.2 ((L.fibre_dom hs hs' h v).1 hv)
    ((L.dom_put s _ v hs h.1).2 hv) (L.refl v)) (L.put_put s _ v hs h.1 hv)

theorem fibre_symm (L : Lens G R D E get put) (hc : Classes G R vs) {s s' : S} (hs : G s) (hs' : G s')
    (h : Fibre R D get put s s') : Fibre R D get put s' s :=
  ⟨(L.fibre_dom hs hs' h _).1 (L.own s hs),
    hc.symm _ _ (hc.trans _ _ _ (L.fibre_put hc hs hs' h (L.own s hs)) (L.put_get s hs))⟩

theorem fibre_trans (L : Lens G R D E get put) (hc : Classes G R vs) {s s' s'' : S} (hs : G s) (hs' : G s')
    (h : Fibre R D get put s s') (h' : Fibre R D get put s' s'') : Fibre R D get put s s'' := by
  have hd := (L.fibre_dom hs hs' h _).2 h'.1
  exact ⟨hd, hc.trans _ _ _ h'.2 (L.fibre_put hc hs hs' h hd)⟩

theorem parts_eq (L : Lens G R D E get put) (hc : Classes G R vs) {s s' : S} (hs : G s) (hs' : G s')
    (h : Fibre R D get put s s') : partsOf R D get put vs s = partsOf R D get put vs s' := by
  unfold partsOf
  congr 1
  refine List.filter_congr fun x hx => ?_
  have : Fibre R D get put s x ↔ Fibre R D get put s' x :=
    ⟨fun h1 => L.fibre_trans hc hs' hs (L.fibre_symm hc hs hs' h) h1, fun h1 => L.fibre_trans hc hs hs' h h1⟩
  exact decide_eq_decide.2 this

theorem put_iff (L : Lens G R D E get put) (hc : Classes G R vs) {s w : S} (hs : G s) (hw : G w)
    {v : V} (hv : D s v) : R (put s v) w ↔ Fibre R D get put s w ∧ E v (get w) := by
  constructor
  · intro h
    have he : E v (get w) := L.trans _ _ _ (L.symm _ _ (L.get_put s v hs hv)) (L.same _ _ (L.good s v hs hv) hw h)
    have hd : D s (get w) := (L.dom_put s v _ hs hv).1 ((L.dom _ _ _ (L.good s v hs hv) hw h).2 (L.own w hw))
    exact ⟨⟨hd, hc.trans _ _ _ (hc.symm _ _ h) (L.congr s s _ _ hs hs (hc.refl s) hv hd he)⟩, he⟩
  · rintro ⟨⟨hd, h⟩, he⟩
    exact hc.trans _ _ _ (L.congr s s _ _ hs hs (hc.refl s) hv hd he) (hc.symm _ _ h)

open Classical in
theorem classes (L : Lens G R D E get put) (hc : Classes G R vs) {s : S} (hs : G s) :
    Classes (D s) E (partsOf R D get put vs s) where
  refl := L.refl
  symm := L.symm
  trans := L.trans
  each v hv := by
    obtain ⟨w, hw, rfl⟩ := List.mem_map.1 hv
    exact (of_decide_eq_true (List.mem_filter.1 hw).2).1
  once := by
    unfold partsOf
    rw [List.pairwise_map]
    refine (hc.once.filter _).imp_of_mem fun {a b} ha hb h he => h ?_
    have ha' : Fibre R D get put s a := of_decide_eq_true (List.mem_filter.1 ha).2
    have hb' : Fibre R D get put s b := of_decide_eq_true (List.mem_filter.1 hb).2
    exact hc.trans _ _ _ ha'.2 ((L.put_iff hc hs (hc.each b (List.mem_filter.1 hb).1) ha'.1).2 ⟨hb', he⟩)
  all v hv := by
    obtain ⟨w, hw, h⟩ := hc.all _ (L.good s v hs hv)
    have := (L.put_iff hc hs (hc.each w hw) hv).1 h
    exact ⟨get w, List.mem_map.2 ⟨w, List.mem_filter.2 ⟨hw, decide_eq_true this.1⟩, rfl⟩, this.2⟩

theorem part_classFn (L : Lens G R D E get put) (hc : Classes G R vs) {s : S} (hs : G s) {F : S → ENNReal}
    (hF : ClassFn G R F) : ClassFn (D s) E fun v => F (put s v) := fun v v' hv hv' h =>
  hF _ _ (L.good s v hs hv) (L.good s v' hs hv') (L.congr s s v v' hs hs (hc.refl s) hv hv' h)

end Lens

/-- The call gives the part a new value, with the chances `K s` in the state `s`. -/
structure PartKernel (μ : Measure Draw) [IsProbabilityMeasure μ] (G : S → Prop) (R : S → S → Prop) (D : S → V → Prop)
    (E : V → V → Prop) (get : S → V) (put : S → V → S) (m : Py (S × Rng) α) (K : S → V → (V → ENNReal) → ENNReal) : Prop where
  good : ∀ s, G s → ∀ g a s' g', m (s, g) = (.ok a, (s', g')) → G s'
  law : ∀ s, G s → ∀ (Φ : S → Set Rng) F, (∀ v, D s v → MeasurableSet (Φ (put s v)) ∧ Pr μ (Φ (put s v)) = F v) →
    ClassFn (D s) E F → MeasurableSet (Ends m s Φ) ∧ Pr μ (Ends m s Φ) = K s (get s) F
  cls : ∀ s, G s → ∀ F, ClassFn (D s) E F → ClassFn (D s) E fun v => K s v F
  fibre : ∀ s s', G s → G s' → Fibre R D get put s s' → ∀ v, D s v → ∀ F, ClassFn (D s) E F → K s v F = K s' v F
  only : ∀ s, G s → ∀ v, D s v → ∀ F F', ClassFn (D s) E F → ClassFn (D s) E F' → (∀ w, D s w → F w = F' w) → K s v F = K s v F'

theorem PartKernel.kernel {m : Py (S × Rng) α} {K : S → V → (V → ENNReal) → ENNReal}
    (h : PartKernel μ G R D E get put m K) (L : Lens G R D E get put) (hc : Classes G R vs) :
    Kernel μ G R m fun s F => K s (get s) fun v => F (put s v) where
  good := h.good
  law s hs Φ F hΦ hF := h.law s hs Φ _ (fun v hv => hΦ _ (L.good s v hs hv)) (L.part_classFn hc hs hF)
  cls F hF s s' hs hs' e := by
    have hfib := L.fibre_of hc hs hs' e
    have hf := L.part_classFn hc hs hF
    have hdom := fun v => L.dom s s' v hs hs' e
    have hf' : ClassFn (D s') E fun v => F (put s v) := fun v v' hv hv' => hf v v' ((hdom v).2 hv) ((hdom v').2 hv')
    dsimp only
    refine (h.fibre s s' hs hs' hfib _ (L.own s hs) _ hf).trans
      ((h.cls s' hs' _ hf' (get s) (get s') ((hdom _).1 (L.own s hs)) (L.own s' hs') (L.same s s' hs hs' e)).trans ?_)
    refine h.only s' hs' _ (L.own s' hs') _ _ hf' (L.part_classFn hc hs' hF) fun v hv => ?_
    exact hF _ _ (L.good s v hs ((hdom v).2 hv)) (L.good s' v hs' hv)
      (L.congr s s' v v hs hs' e ((hdom v).2 hv) hv (L.refl v))

theorem sum_filter_ite {U : Type} (l : List U) (q : U → Prop) [DecidablePred q] (f : U → ENNReal) :
    ((l.filter fun x => decide (q x)).map f).sum = (l.map fun x => if q x then f x else 0).sum := by
  induction l with
  | nil => rfl
  | cons a l ih =>
    by_cases h : q a
    · rw [List.filter_cons_of_pos (by simpa using h), List.map_cons, List.sum_cons, List.map_cons, List.sum_cons, if_pos h, ih]
    · rw [List.filter_cons_of_neg (by simpa using h), List.map_cons, List.sum_cons, if_neg h, zero_add, ih]

open Classical in
/-- Sums over a list agree if they do on each class of an equivalence. -/
theorem sum_by_class {U : Type} (A : U → U → Prop) (f f' : U → ENNReal) : ∀ (n : Nat) (l : List U), l.length ≤ n →
    (∀ a ∈ l, A a a) → (∀ a ∈ l, ∀ b ∈ l, A a b → A b a) → (∀ a ∈ l, ∀ b ∈ l, ∀ c ∈ l, A a b → A b c → A a c) →
    (∀ a ∈ l, ((l.filter fun x => decide (A a x)).map f).sum = ((l.filter fun x => decide (A a x)).map f').sum) →
    (l.map f).sum = (l.map f').sum
  | _, [], _, _, _, _, _ => rfl
  | 0, a :: l, h, _, _, _, _ => by simp at h
  | n + 1, a :: l, hn, hr, hs, ht, h => by
    have split : ∀ φ : U → ENNReal, ((a :: l).map φ).sum = (((a :: l).filter fun x => decide (A a x)).map φ).sum +
        (((a :: l).filter fun x => decide (¬ A a x)).map φ).sum := by
      intro φ
      rw [sum_filter_ite, sum_filter_ite _ (fun x => ¬ A a x), ← List.sum_map_add]
      congr 1
      refine List.map_congr_left fun x _ => ?_
      by_cases hx : A a x <;> simp [hx]
    have hmem : ∀ x ∈ (a :: l).filter fun x => decide (¬ A a x), x ∈ a :: l ∧ ¬ A a x := fun x hx =>
      ⟨(List.mem_filter.1 hx).1, of_decide_eq_true (List.mem_filter.1 hx).2⟩
    rw [split f, split f', h a List.mem_cons_self]
    congr 1
    refine sum_by_class A f f' n _ ?_ (fun x hx => hr x (hmem x hx).1) (fun x hx y hy => hs x (hmem x hx).1 y (hmem y hy).1)
      (fun x hx y hy z hz => ht x (hmem x hx).1 y (hmem y hy).1 z (hmem z hz).1) fun x hx => ?_
    · have : ((a :: l).filter fun x => decide (¬ A a x)).length < (a :: l).length := by
        refine List.length_filter_lt_length_iff_exists.2 ⟨a, List.mem_cons_self, ?_⟩
        simpa using hr a List.mem_cons_self
      omega
    · have hx' := hmem x hx
      have e : ((a :: l).filter fun x => decide (¬ A a x)).filter (fun y => decide (A x y)) =
          (a :: l).filter fun y => decide (A x y) := by
        rw [List.filter_filter]
        refine List.filter_congr fun y hy => ?_
        by_cases hxy : A x y
        · have : ¬ A a y := fun hay => hx'.2 (ht a List.mem_cons_self y hy x hx'.1 hay (hs x hx'.1 y hy hxy))
          simp [hxy, this]
        · simp [hxy]
      rw [e]
      exact h x hx'.1

theorem PartKernel.keeps {m : Py (S × Rng) α} {K : S → V → (V → ENNReal) → ENNReal} {π : S → ENNReal} {w : S → V → ENNReal}
    {c : S → ENNReal} (h : PartKernel μ G R D E get put m K) (L : Lens G R D E get put) (hc : Classes G R vs)
    (hk : ∀ s, G s → Keeps (D s) E (partsOf R D get put vs s) (w s) (K s))
    (hw : ∀ s, G s → ∀ s' ∈ vs, Fibre R D get put s s' → π s' = c s * w s (get s')) :
    Keeps G R vs π fun s F => K s (get s) fun v => F (put s v) := by
  classical
  intro F hF
  refine sum_by_class (Fibre R D get put) _ _ vs.length vs le_rfl (fun a ha => L.fibre_refl hc (hc.each a ha))
    (fun a ha b hb => L.fibre_symm hc (hc.each a ha) (hc.each b hb))
    (fun a ha b hb _ _ => L.fibre_trans hc (hc.each a ha) (hc.each b hb)) fun a ha => ?_
  have hG := hc.each a ha
  have hf := L.part_classFn hc hG hF
  have key := hk a hG _ hf
  unfold partsOf at key
  rw [List.map_map, List.map_map] at key
  have e : ∀ (φ : V → ENNReal) (ψ : S → ENNReal), (∀ s ∈ vs, Fibre R D get put a s → ψ s = c a * (w a (get s) * φ (get s))) →
      ((vs.filter fun x => decide (Fibre R D get put a x)).map ψ).sum =
      c a * ((vs.filter fun x => decide (Fibre R D get put a x)).map ((fun v => w a v * φ v) ∘ get)).sum := by
    intro φ ψ hψ
    rw [← List.sum_map_mul_left]
    congr 1
    refine List.map_congr_left fun s hs => ?_
    exact hψ s (List.mem_filter.1 hs).1 (of_decide_eq_true (List.mem_filter.1 hs).2)
  refine (e (fun v => K a v fun v => F (put a v)) _ ?_).trans (Eq.trans ?_ (e (fun v => F (put a v)) _ ?_).symm)
  · intro s hs hfib
    have hs' := hc.each s hs
    rw [hw a hG s hs hfib, mul_assoc]
    congr 2
    rw [h.fibre a s hG hs' hfib _ hfib.1 _ hf]
    have hdom := L.fibre_dom hG hs' hfib
    refine h.only s hs' _ (L.own s hs') _ _ (L.part_classFn hc hs' hF)
      (fun v v' hv hv' => hf v v' ((hdom v).2 hv) ((hdom v').2 hv')) fun v hv => ?_
    exact hF _ _ (L.good s v hs' hv) (L.good a v hG ((hdom v).2 hv)) (L.fibre_put hc hG hs' hfib ((hdom v).2 hv))
  · exact congrArg (c a * ·) key
  · intro s hs hfib
    rw [hw a hG s hs hfib, mul_assoc]
    congr 2
    exact hF _ _ (hc.each s hs) (L.good a _ hG hfib.1) hfib.2

theorem PartKernel.linear {m : Py (S × Rng) α} {K : S → V → (V → ENNReal) → ENNReal}
    (h : PartKernel μ G R D E get put m K) (L : Lens G R D E get put) (hc : Classes G R vs)
    (hl : ∀ s, G s → Linear (D s) E (partsOf R D get put vs s) (K s)) :
    Linear G R vs fun s F => K s (get s) fun v => F (put s v) := by
  classical
  intro s hs F hF
  have hf := L.part_classFn hc hs hF
  have hzero : K s (get s) (fun _ => 0) = 0 := by
    rw [hl s hs _ (L.own s hs) (fun _ => 0) fun _ _ _ _ _ => rfl]
    simp
  dsimp only
  rw [hl s hs _ (L.own s hs) _ hf]
  unfold partsOf
  rw [List.map_map, sum_filter_ite]
  congr 1
  refine List.map_congr_left fun w hw => ?_
  have hw' := hc.each w hw
  have e : ∀ v, D s v → ind R w (put s v) = if Fibre R D get put s w then ind E (get w) v else 0 := by
    intro v hv
    have := L.put_iff hc hs hw' hv
    unfold ind
    by_cases h1 : Fibre R D get put s w <;> by_cases h2 : E v (get w) <;> simp [this, h1, h2]
  have hcE := (L.classes hc hs).classFn
  rw [h.only s hs _ (L.own s hs) _ _ (L.part_classFn hc hs (hc.classFn w)) (fun v v' hv hv' he => by
    by_cases h1 : Fibre R D get put s w
    · rw [if_pos h1, if_pos h1]; exact hcE _ _ _ hv hv' he
    · rw [if_neg h1, if_neg h1]) e]
  by_cases h1 : Fibre R D get put s w
  · simp only [h1, if_true, Function.comp]
    rw [hF _ _ hw' (L.good s _ hs h1.1) h1.2]
  · simp only [h1, if_false, hzero, zero_mul]

/-- The call can lead to any state that agrees outside the part and has a value of the part that it can reach. -/
theorem PartKernel.reach {m : Py (S × Rng) α} {K : S → V → (V → ENNReal) → ENNReal}
    (h : PartKernel μ G R D E get put m K) (L : Lens G R D E get put) (hc : Classes G R vs) {s w : S} (hs : G s) (hw : G w)
    (hfib : Fibre R D get put s w) (hr : K s (get s) (ind E (get w)) ≠ 0) :
    (K s (get s) fun v => ind R w (put s v)) ≠ 0 := by
  classical
  rw [h.only s hs _ (L.own s hs) _ (ind E (get w)) (L.part_classFn hc hs (hc.classFn w)) ((L.classes hc hs).classFn _) fun v hv => ?_]
  · exact hr
  · have := L.put_iff hc hs hw hv
    unfold ind
    by_cases h2 : E v (get w) <;> simp [this, hfib, h2]

/-! ## Moves -/

/-- The call is a move between states of which the weights `π` are kept, however the states are represented. -/
structure Move (μ : Measure Draw) [IsProbabilityMeasure μ] (G : S → Prop) (R : S → S → Prop) (π : S → ENNReal)
    (m : Py (S × Rng) α) (K : List S → S → (S → ENNReal) → ENNReal) : Prop where
  kernel : ∀ vs, Classes G R vs → Kernel μ G R m (K vs)
  linear : ∀ vs, Classes G R vs → Linear G R vs (K vs)
  stoch : ∀ vs, Classes G R vs → Stoch G (K vs)
  keeps : ∀ vs, Classes G R vs → Keeps G R vs π (K vs)

theorem Move.only {π : S → ENNReal} {m : Py (S × Rng) α} {K : List S → S → (S → ENNReal) → ENNReal} (h : Move μ G R π m K)
    (hc : Classes G R vs) {s : S} (hs : G s) {F F' : S → ENNReal} (hF : ClassFn G R F) (hF' : ClassFn G R F')
    (e : ∀ w, G w → F w = F' w) : K vs s F = K vs s F' := by
  rw [h.linear vs hc s hs F hF, h.linear vs hc s hs F' hF']
  congr 1
  exact List.map_congr_left fun w hw => by rw [e w (hc.each w hw)]

/-- A move of a part of the state. -/
theorem Move.lift {GV : V → Prop} {πV : V → ENNReal} {π : S → ENNReal} {mV : Py (V × Rng) α} {m : Py (S × Rng) α}
    {KV : List V → V → (V → ENNReal) → ENNReal} (L : Lens G R (fun _ => GV) E get put) (h : Move μ GV E πV mV KV)
    (hrun : ∀ s, G s → ∀ g, m (s, g) = ((mV (get s, g)).1, (put s (mV (get s, g)).2.1, (mV (get s, g)).2.2)))
    (hπ : ClassFn G R π) (hw : ∀ s, G s → ∃ c, ∀ v, GV v → π (put s v) = c * πV v) :
    Move μ G R π m fun vs s F => KV (partsOf R (fun _ => GV) get put vs s) (get s) fun v => F (put s v) := by
  have part : ∀ vs, Classes G R vs → PartKernel μ G R (fun _ => GV) E get put m fun s =>
      KV (partsOf R (fun _ => GV) get put vs s) := fun vs hc =>
    { good := fun s hs g a s' g' e => by
        rw [hrun s hs g] at e
        rcases e1 : mV (get s, g) with ⟨r, v, g1⟩
        rw [e1] at e
        cases e
        exact L.good s v hs ((h.kernel _ (L.classes hc hs)).good _ (L.own s hs) g a v _ e1)
      law := fun s hs Φ F hΦ hF => by
        have := (h.kernel _ (L.classes hc hs)).law (get s) (L.own s hs) (fun v => Φ (put s v)) F hΦ hF
        have e : Ends m s Φ = Ends mV (get s) fun v => Φ (put s v) := by
          ext g
          unfold Ends
          simp only [Set.mem_ofPred_eq]
          rw [hrun s hs g]
          constructor
          · rintro ⟨a, s', g', e, hg⟩
            rcases e1 : mV (get s, g) with ⟨r, v, g1⟩
            rw [e1] at e
            cases e
            exact ⟨a, v, _, rfl, hg⟩
          · rintro ⟨a, v, g', e, hg⟩
            rw [e]
            exact ⟨a, _, g', rfl, hg⟩
        rw [e]
        exact this
      cls := fun s hs F hF => (h.kernel _ (L.classes hc hs)).cls F hF
      fibre := fun s s' hs hs' hf v _ F _ => by
        rw [L.parts_eq hc hs hs' hf]
      only := fun s hs v hv F F' hF hF' e => h.only (L.classes hc hs) hv hF hF' e }
  refine ⟨fun vs hc => (part vs hc).kernel L hc,
    fun vs hc => (part vs hc).linear L hc fun s hs => h.linear _ (L.classes hc hs),
    fun vs hc s hs => h.stoch _ (L.classes hc hs) _ (L.own s hs), fun vs hc => ?_⟩
  choose c hcs using hw
  classical
  refine (part vs hc).keeps (w := fun _ => πV) (c := fun s => if hs : G s then c s hs else 0) L hc
    (fun s hs => h.keeps _ (L.classes hc hs)) fun s hs s' hs' hf => ?_
  rw [hπ s' _ (hc.each s' hs') (L.good s _ hs hf.1) hf.2, hcs s hs _ hf.1, dif_pos hs]

theorem Kernel.same {m m' : Py (S × Rng) α} {K : S → (S → ENNReal) → ENNReal} (h : Kernel μ G R m K)
    (e : ∀ s, G s → ∀ g, m' (s, g) = m (s, g)) : Kernel μ G R m' K where
  good s hs g a s' g' h1 := h.good s hs g a s' g' (by rw [← e s hs g]; exact h1)
  law s hs Φ F hΦ hF := by
    have : Ends m' s Φ = Ends m s Φ := by
      ext g
      unfold Ends
      simp only [Set.mem_ofPred_eq]
      rw [e s hs g]
    rw [this]
    exact h.law s hs Φ F hΦ hF
  cls := h.cls

theorem Move.same {π : S → ENNReal} {m m' : Py (S × Rng) α} {K : List S → S → (S → ENNReal) → ENNReal}
    (h : Move μ G R π m K) (e : ∀ s, G s → ∀ g, m' (s, g) = m (s, g)) : Move μ G R π m' K :=
  ⟨fun vs hc => (h.kernel vs hc).same e, h.linear, h.stoch, h.keeps⟩

theorem Move.mapL {π : S → ENNReal} {B : Type} {f : B → Py (S × Rng) α} {K : B → List S → S → (S → ENNReal) → ENNReal}
    {l : List B} (h : ∀ b ∈ l, Move μ G R π (f b) (K b)) :
    Move μ G R π (Py.mapL f l) fun vs => kernels (fun b => K b vs) l where
  kernel vs hc := Kernel.mapL fun b hb => (h b hb).kernel vs hc
  linear vs hc := (Linear.kernels hc (fun b hb => (h b hb).linear vs hc) fun b hb => ((h b hb).kernel vs hc).cls).1
  stoch vs hc := Stoch.kernels hc (fun b hb => (h b hb).linear vs hc) fun b hb => (h b hb).stoch vs hc
  keeps vs hc := Keeps.mapL (fun b hb => (h b hb).kernel vs hc) fun b hb => (h b hb).keeps vs hc

theorem Move.drop {π : S → ENNReal} {m : Py (S × Rng) α} {K : List S → S → (S → ENNReal) → ENNReal}
    (h : Move μ G R π m K) : Move μ G R π (do let _ ← m; pure ()) K :=
  ⟨fun vs hc => by
    have := (h.kernel vs hc).bind (f := fun _ => (pure () : Py (S × Rng) Unit)) (f' := pure ()) (fun _ => rfl)
      (Kernel.pure (μ := μ) (G := G) (R := R) ())
    exact this, h.linear, h.stoch, h.keeps⟩

end Cgpm2
