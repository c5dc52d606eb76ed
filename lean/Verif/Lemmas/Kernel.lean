import Verif.Lemmas.Stationary

/-!
# Calls as random moves between states (helpers)
-/

namespace Cgpm2
open Spec MeasureTheory

variable {μ : Measure Draw} [IsProbabilityMeasure μ] {S α β : Type} {G : S → Prop} {R : S → S → Prop}

/-- The streams of draws with which the call succeeds, leaving a state and a rest of the stream in
`Φ`. -/
def Ends (m : Py (S × Rng) α) (s : S) (Φ : S → Set Rng) : Set Rng :=
  {g | ∃ a s' g', m (s, g) = (.ok a, (s', g')) ∧ g' ∈ Φ s'}

/-- The function has one value on each class of states. -/
def ClassFn (G : S → Prop) (R : S → S → Prop) (F : S → ENNReal) : Prop :=
  ∀ s s', G s → G s' → R s s' → F s = F s'

/-- The chances of the outcomes of the call are given by `K`. -/
structure Kernel (μ : Measure Draw) [IsProbabilityMeasure μ] (G : S → Prop) (R : S → S → Prop) (m : Py (S × Rng) α)
    (K : S → (S → ENNReal) → ENNReal) : Prop where
  good : ∀ s, G s → ∀ g a s' g', m (s, g) = (.ok a, (s', g')) → G s'
  law : ∀ s, G s → ∀ Φ F, (∀ s', G s' → MeasurableSet (Φ s') ∧ Pr μ (Φ s') = F s') → ClassFn G R F →
    MeasurableSet (Ends m s Φ) ∧ Pr μ (Ends m s Φ) = K s F
  cls : ∀ F, ClassFn G R F → ClassFn G R fun s => K s F

/-- The weights `π` of the states `vs` are those after a move. -/
def Keeps (G : S → Prop) (R : S → S → Prop) (vs : List S) (π : S → ENNReal) (K : S → (S → ENNReal) → ENNReal) : Prop :=
  ∀ F, ClassFn G R F → (vs.map fun s => π s * K s F).sum = (vs.map fun s => π s * F s).sum

theorem ends_bind (m : Py (S × Rng) α) (f : α → Py (S × Rng) β) (f' : Py (S × Rng) β) (hf : ∀ a, f a = f') (s : S)
    (Φ : S → Set Rng) : Ends (m >>= f) s Φ = Ends m s fun s' => Ends f' s' Φ := by
  ext g
  unfold Ends
  simp only [Set.mem_ofPred_eq, Py.bind_apply]
  rcases h : m (s, g) with ⟨_ | a, s1, g1⟩
  · constructor
    · rintro ⟨_, _, _, h, -⟩
      cases h
    · rintro ⟨_, _, _, h, -⟩
      cases h
  · simp only [hf]
    constructor
    · rintro ⟨b, s2, g2, h1, h2⟩
      exact ⟨_, _, _, rfl, b, s2, g2, h1, h2⟩
    · rintro ⟨a', s1', g1', h1, b, s2, g2, h2, h3⟩
      cases h1
      exact ⟨b, s2, g2, h2, h3⟩

theorem Kernel.bind {m : Py (S × Rng) α} {f : α → Py (S × Rng) β} {f' : Py (S × Rng) β} {K K' : S → (S → ENNReal) → ENNReal}
    (h : Kernel μ G R m K) (hf : ∀ a, f a = f') (h' : Kernel μ G R f' K') :
    Kernel μ G R (m >>= f) fun s F => K s fun s' => K' s' F where
  good s hs g b s' g' e := by
    rw [Py.bind_apply] at e
    rcases h1 : m (s, g) with ⟨_ | a, s1, g1⟩
    · rw [h1] at e
      cases e
    · rw [h1] at e
      change f a (s1, g1) = _ at e
      rw [hf] at e
      exact h'.good _ (h.good _ hs _ _ _ _ h1) _ _ _ _ e
  law s hs Φ F hΦ hF := by
    rw [ends_bind m f f' hf]
    exact h.law s hs _ _ (fun s' hs' => h'.law s' hs' Φ F hΦ hF) (h'.cls F hF)
  cls F hF := h.cls _ (h'.cls F hF)

theorem Keeps.bind {vs : List S} {π : S → ENNReal} {m : Py (S × Rng) α} {K K' : S → (S → ENNReal) → ENNReal}
    (h : Keeps G R vs π K) (hk : Kernel μ G R m K') (h' : Keeps G R vs π K') :
    Keeps G R vs π fun s F => K s fun s' => K' s' F := fun F hF =>
  (h _ (hk.cls F hF)).trans (h' F hF)

theorem Kernel.pure (a : α) : Kernel μ G R (pure a : Py (S × Rng) α) fun s F => F s where
  good s hs g b s' g' e := by
    cases e
    exact hs
  law s hs Φ F hΦ hF := by
    have : Ends (Pure.pure a : Py (S × Rng) α) s Φ = Φ s := by
      ext g
      constructor
      · rintro ⟨_, _, _, h, h'⟩
        cases h
        exact h'
      · exact fun h => ⟨_, _, _, rfl, h⟩
    rw [this]
    exact hΦ s hs
  cls F hF := hF

/-- The chances of a sequence of moves. -/
def kernels {B : Type} (K : B → S → (S → ENNReal) → ENNReal) : List B → S → (S → ENNReal) → ENNReal
  | [], s, F => F s
  | b :: l, s, F => K b s fun s' => kernels K l s' F

theorem Kernel.mapL {B : Type} {f : B → Py (S × Rng) α} {K : B → S → (S → ENNReal) → ENNReal} {l : List B}
    (h : ∀ b ∈ l, Kernel μ G R (f b) (K b)) : Kernel μ G R (Py.mapL f l) (kernels K l) := by
  induction l with
  | nil => exact Kernel.pure _
  | cons b l ih =>
    have hb := h b List.mem_cons_self
    have hl := ih fun b hb => h b (List.mem_cons_of_mem _ hb)
    refine ⟨fun s hs g as s' g' hm => ?_, fun s hs Φ F hΦ hF => ?_, fun F hF => hb.cls _ (hl.cls F hF)⟩
    · rw [show Py.mapL f (b :: l) = (f b >>= fun a => Py.mapL f l >>= fun as => Pure.pure (a :: as)) from rfl,
        Py.bind_apply] at hm
      rcases h1 : f b (s, g) with ⟨_ | a, s1, g1⟩
      · rw [h1] at hm
        cases hm
      · rw [h1] at hm
        dsimp only at hm
        rw [Py.bind_apply] at hm
        rcases h2 : Py.mapL f l (s1, g1) with ⟨_ | as', s2, g2⟩
        · rw [h2] at hm
          cases hm
        · rw [h2] at hm
          cases hm
          exact hl.good _ (hb.good _ hs _ _ _ _ h1) _ _ _ _ h2
    · have : Ends (Py.mapL f (b :: l)) s Φ = Ends (f b) s fun s' => Ends (Py.mapL f l) s' Φ := by
        rw [show Py.mapL f (b :: l) = (f b >>= fun a => Py.mapL f l >>= fun as => Pure.pure (a :: as)) from rfl]
        ext g
        unfold Ends
        simp only [Set.mem_ofPred_eq, Py.bind_apply]
        rcases h1 : f b (s, g) with ⟨_ | a, s1, g1⟩
        · constructor
          · rintro ⟨_, _, _, h, -⟩
            cases h
          · rintro ⟨_, _, _, h, -⟩
            cases h
        · dsimp only
          constructor
          · rintro ⟨b', s2, g2, h2, h3⟩
            rcases h4 : Py.mapL f l (s1, g1) with ⟨_ | as', s3, g3⟩
            · rw [h4] at h2
              cases h2
            · rw [h4] at h2
              cases h2
              exact ⟨_, _, _, rfl, _, _, _, h4, h3⟩
          · rintro ⟨a', s1', g1', h2, as', s2, g2, h4, h3⟩
            cases h2
            rw [h4]
            exact ⟨_, _, _, rfl, h3⟩
      rw [this]
      exact hb.law s hs _ _ (fun s' hs' => hl.law s' hs' Φ F hΦ hF) (hl.cls F hF)

theorem Keeps.mapL {B : Type} {vs : List S} {π : S → ENNReal} {f : B → Py (S × Rng) α}
    {K : B → S → (S → ENNReal) → ENNReal} {l : List B} (hk : ∀ b ∈ l, Kernel μ G R (f b) (K b))
    (h : ∀ b ∈ l, Keeps G R vs π (K b)) : Keeps G R vs π (kernels K l) := by
  induction l with
  | nil => exact fun F _ => rfl
  | cons b l ih =>
    exact Keeps.bind (K := K b) (h b List.mem_cons_self) (Kernel.mapL fun b hb => hk b (List.mem_cons_of_mem _ hb))
      (ih (fun b hb => hk b (List.mem_cons_of_mem _ hb)) fun b hb => h b (List.mem_cons_of_mem _ hb))

/-! ## Resampling within the classes of an equivalence -/

open Classical in
/-- Draws a state equivalent to `s` among `vs`, with chances proportional to `π`. -/
noncomputable def resample (vs : List S) (π : S → ENNReal) (A : S → S → Prop) (s : S) (F : S → ENNReal) : ENNReal :=
  (vs.map fun w => if A s w then π w * F w else 0).sum / (vs.map fun w => if A s w then π w else 0).sum

theorem resample_congr {vs : List S} {π : S → ENNReal} {A : S → S → Prop} {s s' : S} (h : ∀ w ∈ vs, A s w ↔ A s' w)
    (F : S → ENNReal) : resample vs π A s F = resample vs π A s' F := by
  classical
  unfold resample
  congr 2 <;> refine List.map_congr_left fun w hw => ?_ <;> simp only [h w hw]

theorem sum_list_comm {U V : Type} (us : List U) (vs : List V) (f : U → V → ENNReal) :
    (us.map fun u => (vs.map fun w => f u w).sum).sum = (vs.map fun w => (us.map fun u => f u w).sum).sum := by
  induction us with
  | nil => simp
  | cons u us ih => simp [ih, List.sum_map_add]

theorem keeps_resample {vs : List S} {π : S → ENNReal} {A : S → S → Prop} (hr : ∀ s ∈ vs, A s s)
    (hs : ∀ s ∈ vs, ∀ w ∈ vs, A s w → A w s) (ht : ∀ s ∈ vs, ∀ w ∈ vs, ∀ x ∈ vs, A s w → A w x → A s x)
    (hp : ∀ s ∈ vs, π s ≠ 0) (hf : ∀ s ∈ vs, π s ≠ ⊤) : Keeps G R vs π (resample vs π A) := by
  classical
  intro F _
  have hsum : ∀ s ∈ vs, (vs.map fun w => if A s w then π w else 0).sum ≠ 0 ∧
      (vs.map fun w => if A s w then π w else 0).sum ≠ ⊤ := by
    intro s hs
    constructor
    · rw [Ne, List.sum_eq_zero_iff]
      intro h
      have := h (π s) (List.mem_map.2 ⟨s, hs, if_pos (hr s hs)⟩)
      exact hp s hs this
    · have : ∀ l : List S, (∀ w ∈ l, π w ≠ ⊤) → (l.map fun w => if A s w then π w else 0).sum ≠ ⊤ := by
        intro l hl
        induction l with
        | nil => simp
        | cons a l ih =>
          rw [List.map_cons, List.sum_cons, Ne, ENNReal.add_eq_top, not_or]
          refine ⟨?_, ih fun w hw => hl w (List.mem_cons_of_mem _ hw)⟩
          split
          · exact hl a List.mem_cons_self
          · exact ENNReal.zero_ne_top
      exact this vs hf
  have hcls : ∀ s ∈ vs, ∀ w ∈ vs, A s w → (vs.map fun x => if A s x then π x else 0).sum =
      (vs.map fun x => if A w x then π x else 0).sum := by
    intro s h1 w h2 h
    congr 1
    refine List.map_congr_left fun x h3 => ?_
    have : A s x ↔ A w x := ⟨fun h' => ht w h2 s h1 x h3 (hs s h1 w h2 h) h', fun h' => ht s h1 w h2 x h3 h h'⟩
    simp only [this]
  unfold resample
  have e : ∀ s ∈ vs, π s * ((vs.map fun w => if A s w then π w * F w else 0).sum /
      (vs.map fun w => if A s w then π w else 0).sum) = (vs.map fun w => (π w * F w) *
      ((if A w s then π s else 0) / (vs.map fun x => if A w x then π x else 0).sum)).sum := by
    intro s h1
    rw [← mul_div_assoc, ← List.sum_map_mul_left, ENNReal.div_eq_inv_mul, ← List.sum_map_mul_left]
    congr 1
    refine List.map_congr_left fun w h2 => ?_
    by_cases h : A s w
    · rw [if_pos h, if_pos (hs s h1 w h2 h), hcls s h1 w h2 h, ENNReal.div_eq_inv_mul]
      ring
    · have h' : ¬ A w s := fun h' => h (hs w h2 s h1 h')
      rw [if_neg h, if_neg h']
      simp
  rw [List.map_congr_left e, sum_list_comm]
  congr 1
  refine List.map_congr_left fun w h2 => ?_
  rw [List.sum_map_mul_left]
  have : (vs.map fun u => (if A w u then π u else 0) / (vs.map fun x => if A w x then π x else 0).sum).sum = 1 := by
    simp only [ENNReal.div_eq_inv_mul]
    rw [List.sum_map_mul_left]
    exact ENNReal.inv_mul_cancel (hsum w h2).1 (hsum w h2).2
  rw [this, mul_one]

end Cgpm2
