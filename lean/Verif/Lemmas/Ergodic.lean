import Verif.Lemmas.Kernel
import Mathlib.Analysis.SpecificLimits.Basic

/-!
# Repeated moves approach the distribution they keep (helpers)
-/

namespace Cgpm2
open Spec MeasureTheory

variable {μ : Measure Draw} [IsProbabilityMeasure μ] {S α : Type} {G : S → Prop} {R : S → S → Prop} {vs : List S}

open Classical in
/-- The indicator of the class of `w`. -/
noncomputable def ind (R : S → S → Prop) (w : S) (s : S) : ENNReal := if R s w then 1 else 0

/-- The chances are sums over the classes. -/
def Linear (G : S → Prop) (R : S → S → Prop) (vs : List S) (K : S → (S → ENNReal) → ENNReal) : Prop :=
  ∀ s, G s → ∀ F, ClassFn G R F → K s F = (vs.map fun x => K s (ind R x) * F x).sum

/-- The chances sum to one. -/
def Stoch (G : S → Prop) (K : S → (S → ENNReal) → ENNReal) : Prop := ∀ s, G s → K s (fun _ => 1) = 1

/-- Finitely many classes. -/
structure Classes (G : S → Prop) (R : S → S → Prop) (vs : List S) : Prop where
  refl : ∀ s, R s s
  symm : ∀ s w, R s w → R w s
  trans : ∀ s w x, R s w → R w x → R s x
  each : ∀ u ∈ vs, G u
  once : vs.Pairwise fun u w => ¬ R u w
  all : ∀ u, G u → ∃ w ∈ vs, R u w

theorem Classes.nodup (h : Classes G R vs) : vs.Nodup :=
  List.Pairwise.imp (fun {a b} hn (e : a = b) => hn (e ▸ h.refl _)) h.once

theorem Classes.eq (h : Classes G R vs) {u w : S} (hu : u ∈ vs) (hw : w ∈ vs) (e : R u w) : u = w := by
  by_contra hne
  have : Std.Symm fun u w : S => ¬ R u w := ⟨fun _ _ hn e => hn (h.symm _ _ e)⟩
  exact h.once.forall hu hw hne e

theorem Classes.classFn (h : Classes G R vs) (w : S) : ClassFn G R (ind R w) := fun a b _ _ e => by
  classical
  have : R a w ↔ R b w := ⟨fun h' => h.trans _ _ _ (h.symm _ _ e) h', fun h' => h.trans _ _ _ e h'⟩
  simp only [ind, this]

theorem Classes.sum_single (h : Classes G R vs) {w : S} (hw : w ∈ vs) (f : S → ENNReal) :
    (vs.map fun u => f u * ind R w u).sum = f w := by
  classical
  have e2 : ∀ u ∈ vs, (f u * ind R w u) = if u = w then f u else 0 := by
    intro u hu
    by_cases e : u = w
    · subst e
      simp [ind, h.refl]
    · have : ¬ R u w := fun e' => e (h.eq hu hw e')
      simp [ind, e, this]
  rw [List.map_congr_left e2, ← List.sum_toFinset _ h.nodup]
  simp [hw]

/-- The chance of a class. -/
theorem Kernel.chance (hc : Classes G R vs) {m : Py (S × Rng) α} {K : S → (S → ENNReal) → ENNReal} (hk : Kernel μ G R m K)
    {u : S} (hu : G u) (w : S) : Pr μ {g | ∃ a u' g', m (u, g) = (.ok a, (u', g')) ∧ R u' w} = K u (ind R w) := by
  classical
  rw [← (hk.law u hu (fun u' => {_g | R u' w}) _ (fun u' _ => ?_) (hc.classFn w)).2]
  · rfl
  · by_cases h : R u' w
    · simp [ind, h]
    · simp [ind, h]

/-! ## Products and means -/

theorem Linear.comp {K K' : S → (S → ENNReal) → ENNReal} (h : Linear G R vs K) (h' : Linear G R vs K') (hc : Classes G R vs)
    (hk : ∀ F, ClassFn G R F → ClassFn G R fun s => K' s F) : Linear G R vs fun s F => K s fun s' => K' s' F := by
  intro s hs F hF
  refine (h s hs _ (hk F hF)).trans ?_
  have e1 : ∀ x ∈ vs, K s (ind R x) * K' x F = (vs.map fun y => K s (ind R x) * K' x (ind R y) * F y).sum := fun x hx => by
    rw [h' x (hc.each x hx) F hF, ← List.sum_map_mul_left]
    simp only [mul_assoc]
  rw [List.map_congr_left e1, sum_list_comm]
  congr 1
  refine List.map_congr_left fun y _ => ?_
  dsimp only
  rw [h s hs _ (hk _ (hc.classFn y)), ← List.sum_map_mul_right]

theorem Linear.id (hc : Classes G R vs) : Linear G R vs fun s F => F s := by
  intro s hs F hF
  obtain ⟨w, hw, e⟩ := hc.all s hs
  have e1 : ∀ x ∈ vs, ind R x s * F x = F x * ind R w x := fun x hx => by
    classical
    have : R s x ↔ R x w := ⟨fun h => hc.trans _ _ _ (hc.symm _ _ h) e, fun h => hc.trans _ _ _ e (hc.symm _ _ h)⟩
    simp only [ind, this, mul_comm]
  rw [List.map_congr_left e1, hc.sum_single hw]
  exact hF s w hs (hc.each w hw) e

theorem Linear.kernels {B : Type} {K : B → S → (S → ENNReal) → ENNReal} {l : List B} (hc : Classes G R vs)
    (h : ∀ b ∈ l, Linear G R vs (K b)) (hk : ∀ b ∈ l, ∀ F, ClassFn G R F → ClassFn G R fun s => K b s F) :
    Linear G R vs (kernels K l) ∧ ∀ F, ClassFn G R F → ClassFn G R fun s => Cgpm2.kernels K l s F := by
  induction l with
  | nil => exact ⟨Linear.id hc, fun F hF => hF⟩
  | cons b l ih =>
    obtain ⟨h1, h2⟩ := ih (fun b hb => h b (List.mem_cons_of_mem _ hb)) fun b hb => hk b (List.mem_cons_of_mem _ hb)
    exact ⟨Linear.comp (K := K b) (h b List.mem_cons_self) h1 hc h2, fun F hF => hk b List.mem_cons_self _ (h2 F hF)⟩

theorem Stoch.kernels {B : Type} {K : B → S → (S → ENNReal) → ENNReal} {l : List B} (hc : Classes G R vs)
    (h : ∀ b ∈ l, Linear G R vs (K b)) (hs : ∀ b ∈ l, Stoch G (K b)) : Stoch G (kernels K l) := by
  induction l with
  | nil => exact fun _ _ => rfl
  | cons b l ih =>
    have h1 := ih (fun b hb => h b (List.mem_cons_of_mem _ hb)) fun b hb => hs b (List.mem_cons_of_mem _ hb)
    intro s hs'
    change K b s (fun s' => Cgpm2.kernels K l s' fun _ => 1) = 1
    have hb := h b List.mem_cons_self s hs'
    rw [hb _ (fun a b ha hb _ => (h1 a ha).trans (h1 b hb).symm)]
    rw [List.map_congr_left (g := fun x => K b s (ind R x) * 1) fun x hx => by rw [h1 x (hc.each x hx)],
      ← hb (fun _ => 1) fun _ _ _ _ _ => rfl]
    exact hs b List.mem_cons_self s hs'

theorem Linear.resample {π : S → ENNReal} {A : S → S → Prop} (hc : Classes G R vs) :
    Linear G R vs (resample vs π A) := by
  classical
  intro s hs F hF
  unfold Cgpm2.resample
  have e : ∀ x ∈ vs, (vs.map fun w => if A s w then π w * ind R x w else 0).sum = if A s x then π x else 0 := fun x hx => by
    rw [← hc.sum_single hx fun w => if A s w then π w else 0]
    congr 1
    refine List.map_congr_left fun w _ => ?_
    split <;> simp
  rw [List.map_congr_left (f := fun x => (vs.map fun w => if A s w then π w * ind R x w else 0).sum /
      (vs.map fun w => if A s w then π w else 0).sum * F x)
    (g := fun x => (vs.map fun w => if A s w then π w else 0).sum⁻¹ * (if A s x then π x * F x else 0)) fun x hx => ?_]
  · rw [List.sum_map_mul_left, ENNReal.div_eq_inv_mul]
  · rw [e x hx, ENNReal.div_eq_inv_mul, mul_assoc]
    split <;> simp

theorem sum_ne_top {U : Type} {l : List U} {f : U → ENNReal} (h : ∀ w ∈ l, f w ≠ ⊤) : (l.map f).sum ≠ ⊤ := by
  induction l with
  | nil => simp
  | cons a l ih =>
    rw [List.map_cons, List.sum_cons, Ne, ENNReal.add_eq_top, not_or]
    exact ⟨h a List.mem_cons_self, ih fun w hw => h w (List.mem_cons_of_mem _ hw)⟩

theorem sum_ne_zero {U : Type} {l : List U} {f : U → ENNReal} {a : U} (ha : a ∈ l) (h : f a ≠ 0) : (l.map f).sum ≠ 0 := by
  rw [Ne, List.sum_eq_zero_iff]
  exact fun h' => h (h' _ (List.mem_map.2 ⟨a, ha, rfl⟩))

/-- The conditions on the weights and the classes of a move that resamples. -/
structure Weighs (G : S → Prop) (R : S → S → Prop) (vs : List S) (π : S → ENNReal) (A : S → S → Prop) : Prop where
  pos : ∀ s ∈ vs, π s ≠ 0
  fin : ∀ s ∈ vs, π s ≠ ⊤
  refl : ∀ s, A s s
  symm : ∀ s w, A s w → A w s
  trans : ∀ s w x, A s w → A w x → A s x
  weaker : ∀ s w, R s w → A s w

theorem Weighs.total {π : S → ENNReal} {A : S → S → Prop} (h : Weighs G R vs π A) (hc : Classes G R vs) {s : S} (hs : G s) :
    haveI := Classical.propDecidable
    (vs.map fun w => if A s w then π w else 0).sum ≠ 0 ∧ (vs.map fun w => if A s w then π w else 0).sum ≠ ⊤ := by
  classical
  obtain ⟨w, hw, e⟩ := hc.all s hs
  constructor
  · exact sum_ne_zero hw (by rw [if_pos (h.weaker _ _ e)]; exact h.pos w hw)
  · refine sum_ne_top fun w hw => ?_
    split
    · exact h.fin w hw
    · exact ENNReal.zero_ne_top

theorem Stoch.resample {π : S → ENNReal} {A : S → S → Prop} (h : Weighs G R vs π A) (hc : Classes G R vs) :
    Stoch G (resample vs π A) := by
  classical
  intro s hs
  unfold Cgpm2.resample
  simp only [mul_one]
  exact ENNReal.div_self (h.total hc hs).1 (h.total hc hs).2

theorem Weighs.keeps {π : S → ENNReal} {A : S → S → Prop} (h : Weighs G R vs π A) : Keeps G R vs π (Cgpm2.resample vs π A) :=
  keeps_resample (fun s _ => h.refl s) (fun s _ w _ => h.symm s w) (fun s _ w _ x _ => h.trans s w x) h.pos h.fin

/-- A step can lead anywhere in its class. -/
theorem Weighs.reach {π : S → ENNReal} {A : S → S → Prop} (h : Weighs G R vs π A) (hc : Classes G R vs) {s w : S}
    (hs : G s) (hw : w ∈ vs) (ha : A s w) {F : S → ENNReal} (hF : F w ≠ 0) : Cgpm2.resample vs π A s F ≠ 0 := by
  classical
  unfold Cgpm2.resample
  rw [Ne, ENNReal.div_eq_zero_iff, not_or]
  refine ⟨sum_ne_zero hw ?_, (h.total hc hs).2⟩
  rw [if_pos ha]
  exact mul_ne_zero (h.pos w hw) hF

theorem Linear.overOrders {B : Type} [DecidableEq B] {K : List B → S → (S → ENNReal) → ENNReal} {n : Nat} {l : List B}
    (h : ∀ l', l'.Perm l → Linear G R vs (K l')) :
    Linear G R vs fun s F => overOrders n l fun l' => K l' s F := by
  intro s hs F hF
  have e := overOrders_sum n l vs F fun x l' => K l' s (ind R x)
  simp only [mul_comm (F _)] at e
  rw [e]
  exact overOrders_congr _ _ fun l' hl' => h l' hl' s hs F hF

theorem Stoch.overOrders {B : Type} [DecidableEq B] {K : List B → S → (S → ENNReal) → ENNReal} {l : List B}
    (h : ∀ l', l'.Perm l → Stoch G (K l')) :
    Stoch G fun s F => overOrders (l.length - 1) l fun l' => K l' s F := by
  intro s hs
  dsimp only
  rw [overOrders_congr _ _ (H' := fun _ => 1) fun l' hl' => h l' hl' s hs]
  rcases hlen : l.length with _ | n
  · rfl
  · exact overOrders_const n hlen 1

theorem overOrders_ne_zero {B : Type} [DecidableEq B] {n : Nat} {l : List B} (hn : l.length = n + 1) {H : List B → ENNReal}
    (h : ∀ l', l'.Perm l → H l' ≠ 0) : Cgpm2.overOrders n l H ≠ 0 := by
  induction n generalizing l H with
  | zero => exact h l (.refl l)
  | succ n ih =>
    unfold Cgpm2.overOrders
    refine mul_ne_zero (ENNReal.inv_ne_zero.2 (ENNReal.natCast_ne_top _)) ?_
    obtain ⟨a, l, rfl⟩ := List.exists_cons_of_length_eq_add_one hn
    refine sum_ne_zero List.mem_cons_self (ih (by simpa using hn) fun l' hl' => h _ ?_)
    rw [List.erase_cons_head] at hl'
    exact hl'.cons a

/-! ## Repetition -/

/-- Repeated moves. -/
def iterate (K : S → (S → ENNReal) → ENNReal) (n : Nat) : S → (S → ENNReal) → ENNReal :=
  kernels (fun _ : Unit => K) (List.replicate n ())

theorem stoch_le {K : S → (S → ENNReal) → ENNReal} (hl : Linear G R vs K) (hs : Stoch G K) {s w : S} (h : G s) (hw : w ∈ vs) :
    K s (ind R w) ≤ 1 := by
  rw [← hs s h, hl s h (fun _ => 1) fun _ _ _ _ _ => rfl]
  simp only [mul_one]
  exact List.single_le_sum (fun _ _ => zero_le) _ (List.mem_map.2 ⟨w, hw, rfl⟩)

theorem toReal_sum {U : Type} {l : List U} {f : U → ENNReal} (h : ∀ w ∈ l, f w ≠ ⊤) :
    (l.map f).sum.toReal = (l.map fun w => (f w).toReal).sum := by
  induction l with
  | nil => simp
  | cons a l ih =>
    have hl := fun w hw => h w (List.mem_cons_of_mem a hw)
    rw [List.map_cons, List.sum_cons, ENNReal.toReal_add (h a List.mem_cons_self) (sum_ne_top hl), ih hl]
    simp

theorem exists_lower {U : Type} (l : List U) (f : U → ℝ) (h : ∀ u ∈ l, 0 < f u) : ∃ e, 0 < e ∧ e ≤ 1 ∧ ∀ u ∈ l, e ≤ f u := by
  induction l with
  | nil => exact ⟨1, one_pos, le_refl 1, by simp⟩
  | cons a l ih =>
    obtain ⟨e, h1, h2, h3⟩ := ih fun u hu => h u (List.mem_cons_of_mem _ hu)
    refine ⟨min e (f a), lt_min h1 (h a List.mem_cons_self), (min_le_left _ _).trans h2, fun u hu => ?_⟩
    rcases List.mem_cons.1 hu with rfl | hu
    · exact min_le_right _ _
    · exact (min_le_left _ _).trans (h3 u hu)

/-- A sampler that keeps `π` and can go from every class to every other in one move approaches
`π`, normalised, at a geometric rate. -/
theorem converges {K : S → (S → ENNReal) → ENNReal} {π : S → ENNReal} (hc : Classes G R vs) (hl : Linear G R vs K)
    (hk : ∀ F, ClassFn G R F → ClassFn G R fun s => K s F) (hs : Stoch G K) (hK : Keeps G R vs π K)
    (hpos : ∀ s ∈ vs, π s ≠ 0) (hfin : ∀ s ∈ vs, π s ≠ ⊤) (hr : ∀ u ∈ vs, ∀ w ∈ vs, K u (ind R w) ≠ 0) :
    ∃ ρ : ℝ, 0 ≤ ρ ∧ ρ < 1 ∧ ∀ n u w, G u → w ∈ vs →
      |(iterate K n u (ind R w)).toReal - (π w / (vs.map π).sum).toReal| ≤ ρ ^ n := by
  have hlin : ∀ n, Linear G R vs (iterate K n) ∧ ∀ F, ClassFn G R F → ClassFn G R fun s => iterate K n s F :=
    fun n => Linear.kernels hc (fun _ _ => hl) fun _ _ => hk
  have hsto : ∀ n, Stoch G (iterate K n) := fun n => Stoch.kernels hc (fun _ _ => hl) fun _ _ => hs
  have hkeep : ∀ n, Keeps G R vs π (iterate K n) := fun n => by
    induction n with
    | zero => exact fun F _ => rfl
    | succ n ih =>
      intro F hF
      exact (hK _ ((hlin n).2 F hF)).trans (ih F hF)
  have hT := sum_ne_top hfin
  let p : S → ℝ := fun w => (π w / (vs.map π).sum).toReal
  have hp0 : ∀ w, 0 ≤ p w := fun w => ENNReal.toReal_nonneg
  have hpsum : ∀ x ∈ vs, (vs.map p).sum = 1 := fun x hx => by
    have h0 := sum_ne_zero hx (hpos x hx)
    rw [← toReal_sum fun w hw => ENNReal.div_ne_top (hfin w hw) h0]
    simp only [ENNReal.div_eq_inv_mul]
    rw [List.sum_map_mul_left, ENNReal.inv_mul_cancel h0 hT]
    rfl
  have hple : ∀ w ∈ vs, p w ≤ 1 := fun w hw => by
    rw [← hpsum w hw]
    exact List.single_le_sum (fun y hy => by obtain ⟨w, -, rfl⟩ := List.mem_map.1 hy; exact hp0 w) _ (List.mem_map.2 ⟨w, hw, rfl⟩)
  let P : S → S → ℝ := fun u w => (K u (ind R w)).toReal
  have hP0 : ∀ u w, 0 ≤ P u w := fun _ _ => ENNReal.toReal_nonneg
  have hPsum : ∀ u, G u → (vs.map (P u)).sum = 1 := fun u hu => by
    rw [← toReal_sum fun w hw => ne_top_of_le_ne_top ENNReal.one_ne_top (stoch_le hl hs hu hw)]
    have := hl u hu (fun _ => 1) fun _ _ _ _ _ => rfl
    rw [hs u hu] at this
    simp only [mul_one] at this
    rw [← this]
    rfl
  obtain ⟨e, he0, he1, he⟩ := exists_lower (vs ×ˢ vs) (fun uw => P uw.1 uw.2) fun uw huw => by
    obtain ⟨h1, h2⟩ := List.mem_product.1 huw
    exact ENNReal.toReal_pos (hr _ h1 _ h2) (ne_top_of_le_ne_top ENNReal.one_ne_top (stoch_le hl hs (hc.each _ h1) h2))
  have hmin : ∀ u, G u → ∀ w ∈ vs, e * p w ≤ P u w := by
    intro u hu w hw
    obtain ⟨u', hu', hR⟩ := hc.all u hu
    have : P u w = P u' w := by
      exact congrArg ENNReal.toReal (hk _ (hc.classFn w) u u' hu (hc.each _ hu') hR)
    rw [this]
    exact (mul_le_of_le_one_right he0.le (hple w hw)).trans (he (u', w) (List.mem_product.2 ⟨hu', hw⟩))
  refine ⟨1 - e, by linarith, by linarith, fun n u w hu hw => ?_⟩
  change |(iterate K n u (ind R w)).toReal - p w| ≤ _
  have hle : ∀ n x, G x → iterate K n x (ind R w) ≤ 1 := fun n x hx => stoch_le (hlin n).1 (hsto n) hx hw
  have hmean : ∀ n, (vs.map fun x => p x * (iterate K n x (ind R w)).toReal).sum = p w := fun n => by
    have h0 := sum_ne_zero hw (hpos w hw)
    have e1 : (vs.map fun x => p x * (iterate K n x (ind R w)).toReal).sum =
        (vs.map fun x => π x / (vs.map π).sum * iterate K n x (ind R w)).sum.toReal := by
      rw [toReal_sum fun x hx => ENNReal.mul_ne_top (ENNReal.div_ne_top (hfin x hx) h0)
        (ne_top_of_le_ne_top ENNReal.one_ne_top (hle n x (hc.each x hx)))]
      simp only [ENNReal.toReal_mul]
      rfl
    rw [e1]
    change _ = (π w / (vs.map π).sum).toReal
    congr 1
    simp only [ENNReal.div_eq_inv_mul, mul_assoc]
    rw [List.sum_map_mul_left, hkeep n _ (hc.classFn w), hc.sum_single hw]
  induction n generalizing u with
  | zero =>
    have h1 := hle 0 u hu
    have h2 : (iterate K 0 u (ind R w)).toReal ≤ 1 := by
      have := ENNReal.toReal_mono ENNReal.one_ne_top h1
      simpa using this
    have h3 : 0 ≤ (iterate K 0 u (ind R w)).toReal := ENNReal.toReal_nonneg
    rw [pow_zero, abs_le]
    constructor <;> linarith [hp0 w, hple w hw]
  | succ n ih =>
    have hstep : (iterate K (n + 1) u (ind R w)).toReal =
        (vs.map fun x => P u x * (iterate K n x (ind R w)).toReal).sum := by
      have := hl u hu _ ((hlin n).2 _ (hc.classFn w))
      rw [show iterate K (n + 1) u (ind R w) = K u fun x => iterate K n x (ind R w) from rfl, this,
        toReal_sum fun x hx => ENNReal.mul_ne_top
          (ne_top_of_le_ne_top ENNReal.one_ne_top (stoch_le hl hs hu hx))
          (ne_top_of_le_ne_top ENNReal.one_ne_top (hle n x (hc.each x hx)))]
      simp only [ENNReal.toReal_mul]
      rfl
    have key : (iterate K (n + 1) u (ind R w)).toReal - p w =
        (vs.map fun x => (P u x - e * p x) * ((iterate K n x (ind R w)).toReal - p w)).sum := by
      have e1 : ∀ x, (P u x - e * p x) * ((iterate K n x (ind R w)).toReal - p w) =
          P u x * (iterate K n x (ind R w)).toReal + (-e) * (p x * (iterate K n x (ind R w)).toReal) +
            ((- p w) * P u x + (e * p w) * p x) := fun x => by ring
      simp only [e1]
      rw [List.sum_map_add, List.sum_map_add, List.sum_map_add, List.sum_map_mul_left, List.sum_map_mul_left,
        List.sum_map_mul_left, hmean n, ← hstep]
      have h1 := hPsum u hu
      have h2 := hpsum w hw
      rw [show (vs.map fun i => P u i) = vs.map (P u) from rfl, show (vs.map fun i => p i) = vs.map p from rfl, h1, h2]
      ring
    rw [key]
    have habs : ∀ l : List S, (∀ x ∈ l, x ∈ vs) →
        |(l.map fun x => (P u x - e * p x) * ((iterate K n x (ind R w)).toReal - p w)).sum| ≤
          (l.map fun x => (P u x - e * p x) * (1 - e) ^ n).sum := by
      intro l hl'
      induction l with
      | nil => simp
      | cons a l ihl =>
        simp only [List.map_cons, List.sum_cons]
        refine (abs_add_le _ _).trans (add_le_add ?_ (ihl fun x hx => hl' x (List.mem_cons_of_mem _ hx)))
        have ha := hl' a List.mem_cons_self
        rw [abs_mul, abs_of_nonneg (sub_nonneg.2 (hmin u hu a ha))]
        exact mul_le_mul_of_nonneg_left (ih a (hc.each a ha)) (sub_nonneg.2 (hmin u hu a ha))
    refine (habs vs fun x hx => hx).trans ?_
    rw [List.sum_map_mul_right]
    have : (vs.map fun x => P u x - e * p x).sum = 1 - e := by
      simp only [sub_eq_add_neg, ← neg_mul]
      rw [List.sum_map_add, List.sum_map_mul_left]
      rw [show (vs.map fun i => P u i) = vs.map (P u) from rfl, show (vs.map fun i => p i) = vs.map p from rfl, hPsum u hu,
        hpsum w hw]
      ring
    rw [this, pow_succ, mul_comm]

end Cgpm2
