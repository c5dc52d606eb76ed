import Verif.Lemmas.Ergodic

/-!
# Resampling one coordinate of a point of a grid (helpers)
-/

namespace Cgpm2
open Spec MeasureTheory

variable {μ : Measure Draw} [IsProbabilityMeasure μ] {C : Type} [DecidableEq C]

/-- Every choice of one grid point for each key. -/
def cellsOf : Dict C (List ℝ) → List (Dict C ℝ)
  | [] => [[]]
  | (n, grid) :: grids => grid.flatMap fun x => (cellsOf grids).map fun cell => (n, x) :: cell

theorem hyperCells_eq (grids : Dict String (List ℝ)) : hyperCells grids = cellsOf grids := by
  induction grids with
  | nil => rfl
  | cons kg grids ih =>
    obtain ⟨n, grid⟩ := kg
    unfold hyperCells cellsOf
    rw [ih]

theorem sum_flatMap {U V : Type} (l : List U) (f : U → List V) (φ : V → ENNReal) :
    ((l.flatMap f).map φ).sum = (l.map fun x => ((f x).map φ).sum).sum := by
  induction l with
  | nil => rfl
  | cons a l ih => rw [List.flatMap_cons, List.map_append, List.sum_append, ih, List.map_cons, List.sum_cons]

omit [DecidableEq C] in
theorem sum_cells_cons (n : C) (grid : List ℝ) (grids : Dict C (List ℝ)) (φ : Dict C ℝ → ENNReal) :
    ((cellsOf ((n, grid) :: grids)).map φ).sum =
      (grid.map fun x => ((cellsOf grids).map fun c => φ ((n, x) :: c)).sum).sum := by
  rw [show cellsOf ((n, grid) :: grids) = grid.flatMap fun x => (cellsOf grids).map fun cell => (n, x) :: cell from rfl,
    sum_flatMap]
  simp only [List.map_map]
  rfl

/-- Exchanging a coordinate of a point with a new value for it. -/
theorem cells_swap {grids : Dict C (List ℝ)} {n : C} {grid : List ℝ} (hg : Dict.get? grids n = some grid)
    (ψ : Dict C ℝ → Dict C ℝ → ENNReal) :
    ((cellsOf grids).map fun c => (grid.map fun v => ψ c (Dict.set c n v)).sum).sum =
      ((cellsOf grids).map fun c => (grid.map fun v => ψ (Dict.set c n v) c).sum).sum := by
  induction grids generalizing ψ with
  | nil => cases hg
  | cons kg grids ih =>
    obtain ⟨m, gm⟩ := kg
    rw [sum_cells_cons, sum_cells_cons]
    by_cases h : m = n
    · subst h
      have : gm = grid := by simpa [Dict.get?] using hg
      subst this
      simp only [Dict.set, if_true]
      have : ∀ x : ℝ, ((cellsOf grids).map fun c => (gm.map fun v => ψ ((m, x) :: c) ((m, v) :: c)).sum).sum =
          (gm.map fun v => ((cellsOf grids).map fun c => ψ ((m, x) :: c) ((m, v) :: c)).sum).sum := fun x =>
        sum_list_comm _ _ _
      simp only [this]
      rw [sum_list_comm]
      congr 1
      refine List.map_congr_left fun x _ => ?_
      rw [sum_list_comm]
    · rw [Dict.get?, if_neg h] at hg
      simp only [Dict.set, if_neg h]
      congr 1
      exact List.map_congr_left fun x _ => ih hg fun c c' => ψ ((m, x) :: c) ((m, x) :: c')

omit [DecidableEq C] in
theorem mem_cells {grids : Dict C (List ℝ)} {c : Dict C ℝ} :
    c ∈ cellsOf grids ↔ List.Forall₂ (fun kg kv => kg.1 = kv.1 ∧ kv.2 ∈ kg.2) grids c := by
  induction grids generalizing c with
  | nil => simp [cellsOf]
  | cons kg grids ih =>
    obtain ⟨n, grid⟩ := kg
    simp only [cellsOf, List.mem_flatMap, List.mem_map]
    constructor
    · rintro ⟨x, hx, c', hc', rfl⟩
      exact .cons ⟨rfl, hx⟩ (ih.1 hc')
    · rintro (_ | ⟨⟨h1, h2⟩, h3⟩)
      rename_i a b
      obtain ⟨a1, a2⟩ := a
      cases h1
      exact ⟨a2, h2, _, ih.2 h3, rfl⟩

theorem cells_set {grids : Dict C (List ℝ)} {n : C} {grid : List ℝ} (hg : Dict.get? grids n = some grid) {v : ℝ}
    (hv : v ∈ grid) {c : Dict C ℝ} (hc : c ∈ cellsOf grids) : Dict.set c n v ∈ cellsOf grids := by
  rw [mem_cells] at hc ⊢
  induction hc with
  | nil => cases hg
  | @cons a b as bs hab h ih =>
    obtain ⟨a1, a2⟩ := a
    obtain ⟨b1, b2⟩ := b
    obtain ⟨h1, h2⟩ := hab
    dsimp only at h1 h2
    subst h1
    unfold Dict.set
    by_cases e : a1 = n
    · subst e
      have : a2 = grid := by simpa [Dict.get?] using hg
      subst this
      rw [if_pos rfl]
      exact .cons ⟨rfl, hv⟩ h
    · rw [Dict.get?, if_neg e] at hg
      rw [if_neg e]
      exact .cons ⟨rfl, h2⟩ (ih hg)

theorem cells_get {grids : Dict C (List ℝ)} {n : C} {grid : List ℝ} (hg : Dict.get? grids n = some grid) {c : Dict C ℝ}
    (hc : c ∈ cellsOf grids) : ∃ v ∈ grid, Dict.get? c n = some v := by
  rw [mem_cells] at hc
  induction hc with
  | nil => cases hg
  | @cons a b as bs hab h ih =>
    obtain ⟨a1, a2⟩ := a
    obtain ⟨b1, b2⟩ := b
    obtain ⟨h1, h2⟩ := hab
    dsimp only at h1 h2
    subst h1
    by_cases e : a1 = n
    · subst e
      have : a2 = grid := by simpa [Dict.get?] using hg
      subst this
      exact ⟨b2, h2, by simp [Dict.get?]⟩
    · rw [Dict.get?, if_neg e] at hg
      obtain ⟨v, hv, h3⟩ := ih hg
      exact ⟨v, hv, by rw [Dict.get?, if_neg e, h3]⟩

/-! ## The step -/

/-- The mean over the grid of one key, with weights `e`. -/
noncomputable def gridKernel (e : Dict C ℝ → ENNReal) (grids : Dict C (List ℝ)) (n : C) (c : Dict C ℝ)
    (F : Dict C ℝ → ENNReal) : ENNReal :=
  match Dict.get? grids n with
  | none => F c
  | some grid => (grid.map fun v => e (Dict.set c n v) * F (Dict.set c n v)).sum /
      (grid.map fun v => e (Dict.set c n v)).sum

theorem gridKernel_keeps {e : Dict C ℝ → ENNReal} {grids : Dict C (List ℝ)} (hp : ∀ c ∈ cellsOf grids, e c ≠ 0)
    (hf : ∀ c ∈ cellsOf grids, e c ≠ ⊤) (n : C) :
    Keeps (· ∈ cellsOf grids) Eq (cellsOf grids) e (gridKernel e grids n) := by
  intro F _
  unfold gridKernel
  rcases hg : Dict.get? grids n with _ | grid
  · rfl
  dsimp only
  set N : Dict C ℝ → ENNReal := fun c => (grid.map fun v => e (Dict.set c n v)).sum with hN
  have hNset : ∀ c v, N (Dict.set c n v) = N c := fun c v => by
    simp only [hN, Dict.set_set]
  have h1 : ∀ c, e c * ((grid.map fun v => e (Dict.set c n v) * F (Dict.set c n v)).sum / N c) =
      (grid.map fun v => (fun a b => e a * (e b * F b) / N a) c (Dict.set c n v)).sum := fun c => by
    simp only [ENNReal.div_eq_inv_mul]
    rw [← List.sum_map_mul_left, ← List.sum_map_mul_left]
    congr 1
    exact List.map_congr_left fun v _ => by ring
  refine (congrArg List.sum (List.map_congr_left fun c _ => h1 c)).trans ?_
  rw [cells_swap hg fun a b => e a * (e b * F b) / N a]
  congr 1
  refine List.map_congr_left fun c hc => ?_
  have h0 : N c ≠ 0 := by
    obtain ⟨v, hv, -⟩ := cells_get hg hc
    exact sum_ne_zero hv (hp _ (cells_set hg hv hc))
  have ht : N c ≠ ⊤ := sum_ne_top fun v hv => hf _ (cells_set hg hv hc)
  simp only [hNset]
  have : ∀ v, e (Dict.set c n v) * (e c * F c) / N c = e (Dict.set c n v) * (e c * F c / N c) := fun v => by
    simp only [ENNReal.div_eq_inv_mul]
    ring
  simp only [this]
  rw [List.sum_map_mul_right]
  change N c * (e c * F c / N c) = _
  rw [ENNReal.mul_div_cancel h0 ht]

/-! ## transition_hypers -/

/-- `exp` of the joint score with the hyperparameters `h`. -/
noncomputable def weight (ps : List Prim) (h : Dict String ℝ) : ENNReal := ENNReal.ofReal (Real.exp (total ps h))

theorem weight_ne (ps : List Prim) (h : Dict String ℝ) : weight ps h ≠ 0 ∧ weight ps h ≠ ⊤ :=
  ⟨by unfold weight; rw [Ne, ENNReal.ofReal_eq_zero, not_le]; exact Real.exp_pos _, ENNReal.ofReal_ne_top⟩

theorem sum_getD_any {U : Type} (l : List U) (d : U) (f : U → ENNReal) :
    ∑ i ∈ Finset.range l.length, f (l.getD i d) = (l.map f).sum := by
  induction l with
  | nil => rfl
  | cons a l ih =>
    rw [List.length_cons, Finset.sum_range_succ', List.map_cons, List.sum_cons, add_comm]
    exact congrArg (f a + ·) ih

/-- A draw from a list with weights `exp (W x)`, and what follows. -/
theorem pick_law (hμ : IsDraw μ) {U : Type} {l : List U} (hl : l ≠ []) (d : U) (W : U → ℝ) {A : Set Rng} {B : U → Set Rng}
    {F : U → ENNReal} (hB : ∀ x ∈ l, MeasurableSet (B x) ∧ Pr μ (B x) = F x)
    (hA : ∀ g i x g', logPflipIdx (l.map fun a => Fl.fin (W a)) g = (.ok i, g') → l[i]? = some x → (g ∈ A ↔ g' ∈ B x)) :
    MeasurableSet A ∧ Pr μ A = (l.map fun x => ENNReal.ofReal (Real.exp (W x)) * F x).sum /
      (l.map fun x => ENNReal.ofReal (Real.exp (W x))).sum := by
  have hexp : (l.map fun a => Fl.fin (W a)).map Fl.exp = l.map fun a => Real.exp (W a) := by
    rw [List.map_map]; rfl
  have hlog : ∀ y ∈ (l.map fun a => Fl.fin (W a)), y.IsLogP := by
    intro y hy
    obtain ⟨a, _, rfl⟩ := List.mem_map.1 hy
    trivial
  have hnn : ∀ p ∈ l.map (fun a => Real.exp (W a)), 0 ≤ p := by
    intro p hp
    obtain ⟨a, _, rfl⟩ := List.mem_map.1 hp
    exact (Real.exp_pos _).le
  have hpos : 0 < (l.map fun a => Real.exp (W a)).sum := by
    refine List.sum_pos _ (fun p hp => ?_) (by simpa using hl)
    obtain ⟨k, -, rfl⟩ := List.mem_map.1 hp
    exact Real.exp_pos _
  have hget : ∀ i < l.length, l[i]? = some (l.getD i d) := fun i hi => by
    rw [List.getD_eq_getElem?_getD, List.getElem?_eq_getElem hi]
    rfl
  obtain ⟨h1, h2⟩ := branch_law (μ := μ) (n := l.length) (c := logPflipIdx (l.map fun a => Fl.fin (W a)))
    (p := fun i => ENNReal.ofReal (Real.exp (W (l.getD i d)) / (l.map fun a => Real.exp (W a)).sum))
    (A := A) (B := fun i => B (l.getD i d))
    (fun g => by
      obtain ⟨i, x, g', h1, h2⟩ := logFlip_fin hl W g
      exact ⟨i, g', h1, (List.getElem?_eq_some_iff.1 h2).1⟩)
    (fun i hi B hB => by
      rw [logPflipIdx_eq _ hlog, hexp]
      obtain ⟨h1, h2⟩ := pflipIdx_law hμ (l.map fun a => Real.exp (W a)) hnn hpos i (by simpa using hi) hB
      refine ⟨h1, h2.trans ?_⟩
      congr 3
      simp [List.getD_eq_getElem?_getD, List.getElem?_eq_getElem hi])
    (fun i hi => (hB _ (List.mem_of_getElem? (hget i hi))).1)
    (fun g i g' hg => by
      have hi : i < l.length := by
        obtain ⟨i', x, g'', h1, h2⟩ := logFlip_fin hl W g
        rw [hg] at h1
        cases h1
        exact (List.getElem?_eq_some_iff.1 h2).1
      exact hA g i _ g' hg (hget i hi))
  refine ⟨h1, h2.trans ?_⟩
  rw [Finset.sum_congr rfl fun i hi => by rw [(hB _ (List.mem_of_getElem? (hget i (Finset.mem_range.1 hi)))).2]]
  rw [sum_getD_any l d fun x => ENNReal.ofReal (Real.exp (W x) / (l.map fun a => Real.exp (W a)).sum) * F x]
  have hsum : ENNReal.ofReal (l.map fun a => Real.exp (W a)).sum = (l.map fun a => ENNReal.ofReal (Real.exp (W a))).sum := by
    clear * -
    induction l with
    | nil => simp
    | cons a l ih =>
      rw [List.map_cons, List.sum_cons, ENNReal.ofReal_add (Real.exp_pos _).le (List.sum_nonneg (by
        intro p hp; obtain ⟨k, -, rfl⟩ := List.mem_map.1 hp; exact (Real.exp_pos _).le)), ih]
      simp
  rw [← hsum, ENNReal.div_eq_inv_mul, ← List.sum_map_mul_left]
  congr 1
  refine List.map_congr_left fun k _ => ?_
  rw [ENNReal.ofReal_div_of_pos hpos, ENNReal.div_eq_inv_mul, mul_assoc]

/-- All hyperparameters are present, in their order, and legal. -/
def FullHypers (k : Prim.Kind) (h : Dict String ℝ) : Prop := HypersOk k h ∧ Dict.keys h = hyperNames k

theorem FullHypers.set {k : Prim.Kind} {h : Dict String ℝ} (hk : FullHypers k h) {n : String} (hn : n ∈ hyperNames k) {v : ℝ}
    (hv : n ≠ "m" → 0 < v) : FullHypers k (Dict.set h n v) :=
  ⟨hypersOk_set hk.1 hv, by rw [Dict.keys_set_of_mem _ _ _ (by rw [hk.2]; exact hn), hk.2]⟩

theorem loop_law (hμ : IsDraw μ) {k : Prim.Kind} {grids : Dict String (List ℝ)} {ps0 : List Prim} (hp0 : AllOf k ps0)
    (ns : List String) (hnk : ∀ n ∈ ns, n ∈ hyperNames k) (hns : ∀ n ∈ ns, LegalGrid grids n) {h : Dict String ℝ}
    {ps : List Prim} (hk : FullHypers k h)
    (hs : SameList ps0 ps) (hp : AllOf k ps) {Φ : Dict String ℝ → Set Rng} {F : Dict String ℝ → ENNReal}
    (hΦ : ∀ h', FullHypers k h' → MeasurableSet (Φ h') ∧ Pr μ (Φ h') = F h') :
    MeasurableSet {g | ∃ h' ps' g', transitionHypersLoop grids ns h (ps, g) = (.ok h', (ps', g')) ∧ g' ∈ Φ h'} ∧
    Pr μ {g | ∃ h' ps' g', transitionHypersLoop grids ns h (ps, g) = (.ok h', (ps', g')) ∧ g' ∈ Φ h'} =
      kernels (gridKernel (weight ps0) grids) ns h F := by
  induction ns generalizing h ps with
  | nil =>
    have : {g : Rng | ∃ h' ps' g', transitionHypersLoop grids [] h (ps, g) = (.ok h', (ps', g')) ∧ g' ∈ Φ h'} = Φ h := by
      ext g
      constructor
      · rintro ⟨_, _, _, h1, h2⟩
        cases h1
        exact h2
      · exact fun h1 => ⟨_, _, _, rfl, h1⟩
    rw [this]
    exact hΦ h hk
  | cons n ns ih =>
    obtain ⟨grid, hg, hne, hl⟩ := hns n List.mem_cons_self
    have hfull : ∀ v ∈ grid, FullHypers k (Dict.set h n v) := fun v hv => hk.set (hnk n List.mem_cons_self) (hl v hv)
    have hok : ∀ v ∈ grid, HypersOk k (Dict.set h n v) := fun v hv => (hfull v hv).1
    obtain ⟨ps', s1, s2, s3⟩ := transitionHyper_eval (k := k) hp hg hok
    obtain ⟨h1, h2⟩ := pick_law (μ := μ) hμ hne 0 (fun v => total ps (Dict.set h n v))
      (A := {g | ∃ h' ps' g', transitionHypersLoop grids (n :: ns) h (ps, g) = (.ok h', (ps', g')) ∧ g' ∈ Φ h'})
      (B := fun v => {g | ∃ h' ps'' g', transitionHypersLoop grids ns (Dict.set h n v) (ps', g) = (.ok h', (ps'', g')) ∧ g' ∈ Φ h'})
      (F := fun v => kernels (gridKernel (weight ps0) grids) ns (Dict.set h n v) F)
      (fun v hv => ih (fun m hm => hnk m (List.mem_cons_of_mem _ hm)) (fun m hm => hns m (List.mem_cons_of_mem _ hm)) (hfull v hv)
        (hs.trans s1) s2)
      (fun g i v g' hi hv => by
        have e : transitionHypersLoop grids (n :: ns) h (ps, g) = transitionHypersLoop grids ns (Dict.set h n v) (ps', g') := by
          rw [show transitionHypersLoop grids (n :: ns) h =
            (transitionHyper grids h n >>= fun h' => transitionHypersLoop grids ns h') from rfl, Py.bind_apply, s3 g, hi]
          dsimp only
          rw [hv]
        rw [Set.mem_ofPred_eq, Set.mem_ofPred_eq, e])
    refine ⟨h1, h2.trans ?_⟩
    change _ = gridKernel (weight ps0) grids n h fun h' => kernels (gridKernel (weight ps0) grids) ns h' F
    unfold gridKernel
    rw [hg]
    dsimp only
    have : ∀ v ∈ grid, ENNReal.ofReal (Real.exp (total ps (Dict.set h n v))) = weight ps0 (Dict.set h n v) := fun v hv => by
      unfold weight
      rw [total_same hs hp0 (hok v hv)]
    congr 2
    · exact List.map_congr_left fun v hv => by rw [this v hv]
    · exact List.map_congr_left this

end Cgpm2
