import Verif.Lemmas.JointStates
import Verif.Lemmas.ConcreteJoint
import Verif.Lemmas.JointGrids
import Verif.Props.Converges
import Verif.Props.Progress

/-!
# C113, C114: `GibbsCrossCat.transition` samples from the joint posterior of clusters and hyperparameters
-/

namespace Cgpm2.Props
open Spec Views Cpp MeasureTheory

variable {Z : List Var} {μ : Measure Draw} [IsProbabilityMeasure μ] {grids : Dict (Option Var) (Dict String (List ℝ))}

theorem inOrder_forEach (l : List (Py (Gibbs × Rng) Unit)) (st : Gibbs × Rng) : inOrder l st = Gibbs.forEach l (fun m => m) st := by
  induction l generalizing st with
  | nil => rfl
  | cons m l ih =>
    unfold Gibbs.forEach at ih ⊢
    simp only [inOrder, Py.mapL, Py.bind_apply] at ih ⊢
    rcases m st with ⟨e | u, st'⟩
    · rfl
    · have := ih st'
      dsimp only
      rw [this]
      rcases Py.mapL (fun m => m) l st' with ⟨e | ys, st''⟩ <;> rfl

theorem inOrder_repeat (l : List (Py (Gibbs × Rng) Unit)) (n : Nat) (st : Gibbs × Rng) :
    inOrder (sweeps n l) st = repeatCall (Gibbs.forEach l fun m => m) n st := by
  induction n generalizing st with
  | zero => rfl
  | succ n ih =>
    rw [Progress.sweeps_succ, Progress.inOrder_append, inOrder_forEach]
    unfold repeatCall
    rw [Py.bind_apply]
    rcases Gibbs.forEach l (fun m => m) st with ⟨e | u, st'⟩
    · rfl
    · exact ih st'

theorem iterate_keeps {S : Type} {G : S → Prop} {R : S → S → Prop} {vs : List S} {π : S → ENNReal} {m : Py (S × Rng) Unit}
    {K : S → (S → ENNReal) → ENNReal} (h : Kernel μ G R m K) (hk : Keeps G R vs π K) (n : Nat) : Keeps G R vs π (iterate K n) :=
  Keeps.mapL (K := fun _ : Unit => K) (l := List.replicate n ()) (fun _ _ => h) fun _ _ => hk

/-- `transition` makes so many sweeps over the kernels. -/
theorem transition_runs {ord : Orders} {kernels : List String} {outputs : Option (List Var)} {rowids : Option (List RowId)}
    {funcs : List (Py (Gibbs × Rng) Unit)} (hf : kernels.mapM (Dict.getItem (Gibbs.kernelLookup ord outputs rowids)) = .ok funcs)
    {n : Nat} (hn : 1 ≤ n) (st : Gibbs × Rng) (clock : Nat → ℝ) (s' : Gibbs) (g' : Rng) :
    (∃ clock', Gibbs.Transition ord (some n) none (some kernels) outputs rowids ⟨st, clock⟩ (.ok (), ⟨(s', g'), clock'⟩)) ↔
      repeatCall (Gibbs.forEach funcs fun m => m) n st = (.ok (), (s', g')) := by
  obtain ⟨r, h1, h2, h3⟩ := C47_sweeps funcs n hn ⟨st, clock⟩
  have e : ∀ r', Gibbs.Transition ord (some n) none (some kernels) outputs rowids ⟨st, clock⟩ r' ↔
      Progress.TransitionGeneric funcs (some n) none ⟨st, clock⟩ r' := fun r' => by
    unfold Gibbs.Transition
    rw [Option.getD_some, hf]
  rw [← inOrder_repeat, ← h3]
  constructor
  · rintro ⟨clock', h⟩
    rw [← h2 _ ((e _).1 h)]
  · intro h
    rcases r with ⟨r1, ⟨st', clock'⟩⟩
    cases h
    exact ⟨clock', (e _).2 h1⟩

/-- The kernels of the lookup. -/
theorem lookup_kernels (hμ : IsDraw μ) {x : Crosscat} (h : Samplable Z grids x) (ord : Orders) {kernels : List String}
    (hk : ∀ k ∈ kernels, k ∈ ["hypers_distributions", "hypers_row_divide", "hypers_column_divide", "row_assignments"])
    {outputs : Option (List Var)} (ho : ∀ o ∈ outputs.getD [], o ∈ columns x) (rowids : Option (List RowId)) :
    ∃ funcs L, kernels.mapM (Dict.getItem (Gibbs.kernelLookup ord outputs rowids)) = .ok funcs ∧
      Turn μ Z grids x (rowids.getD [] = []) (Gibbs.forEach funcs fun m => m) L ∧
      (outputs.getD [] = [] → (∀ k ∈ ["hypers_distributions", "hypers_row_divide", "row_assignments"], k ∈ kernels) →
        ∀ i v, x.cgpms[i]? = some v → L (i, none) ∧ ∀ o ∈ (cgpmI 2).outputs v, L (i, some o)) := by
  have : ∀ k, ∃ (m : Py (Gibbs × Rng) Unit) (L : Nat × Option Var → Prop), k ∈ kernels →
      Dict.getItem (Gibbs.kernelLookup ord outputs rowids) k = .ok m ∧ Turn μ Z grids x (rowids.getD [] = []) m L ∧
      (outputs.getD [] = [] → ∀ i v, x.cgpms[i]? = some v →
        (k = "hypers_distributions" → ∀ o ∈ viewColumns v, L (i, some o)) ∧
        (k = "hypers_row_divide" → L (i, some (((cgpmI 2).outputs v).headD 0))) ∧
        (k = "row_assignments" → L (i, none))) := fun k => by
    by_cases hm : k ∈ kernels
    · obtain ⟨m, L, h1⟩ := kernels_step hμ h ord rowids ho (hk k hm)
      exact ⟨m, L, fun _ => h1⟩
    · exact ⟨pure (), fun _ => False, fun h => absurd h hm⟩
  choose m L hm using this
  refine ⟨kernels.map m, fun b => ∃ k ∈ kernels, L k b, mapM_ok _ _ _ fun k hk => (hm k hk).1, ?_, fun e hall i v hi => ⟨?_, fun o ho => ?_⟩⟩
  · refine (Turn.forEach fun k hk => (hm k hk).2.1).same fun s _ g => ?_
    unfold Gibbs.forEach
    have : Py.mapL (fun m : Py (Gibbs × Rng) Unit => m) (kernels.map m) = Py.mapL m kernels := by
      induction kernels with
      | nil => rfl
      | cons k l ih =>
        simp only [List.map_cons, Py.mapL]
        rw [ih (fun k hk' => hk k (List.mem_cons_of_mem _ hk')) (fun k hk' => hm k (List.mem_cons_of_mem _ hk'))]
    rw [this]
  · have hin := hall "row_assignments" (by simp)
    exact ⟨_, hin, ((hm _ hin).2.2 e i v hi).2.2 rfl⟩
  · obtain ⟨z, l, h2, h3, -⟩ := outputs_split (variants_self h) hi
    rw [h2] at ho
    rcases List.mem_cons.1 ho with rfl | ho
    · have hin := hall "hypers_row_divide" (by simp)
      refine ⟨_, hin, ?_⟩
      have := ((hm _ hin).2.2 e i v hi).2.1 rfl
      rwa [h2] at this
    · have hin := hall "hypers_distributions" (by simp)
      exact ⟨_, hin, ((hm _ hin).2.2 e i v hi).1 rfl o (by rw [h3]; exact ho)⟩

theorem held_classes {x : Crosscat} {states : List Crosscat} (hs : States Z grids x states) (c : Bool) :
    Classes (Held Z grids x) HeldSame (states.map fun u => ⟨u, c, grids⟩) where
  refl s := sameStates_refl _
  symm _ _ := sameStates_symm
  trans _ _ _ := sameStates_trans
  each u hu := by
    obtain ⟨y, hy, rfl⟩ := List.mem_map.1 hu
    exact ⟨hs.each y hy, rfl⟩
  once := List.pairwise_map.2 hs.once
  all u hu := by
    obtain ⟨y, hy, e⟩ := hs.all _ hu.1
    exact ⟨_, List.mem_map_of_mem hy, e⟩

/-- There are finitely many states. -/
theorem C113_states {x : Crosscat} (h : Samplable Z grids x) : ∃ states, States Z grids x states := states_exist h

/-- The grids that `GibbsCrossCat.__init__` makes serve: every CrossCat made from views, none of whose
columns is a NormalUC or has missing values of a Bernoulli or Poisson column, can be sampled on them. -/
theorem C113_init {x : Crosscat} (hb : Product.init (cgpmI 2) x.cgpms = .ok x) (ht : ∀ view ∈ x.cgpms, Tidy Z 2 view)
    (hx : IsCrosscat x) (hz : ∀ o ∈ columns x, o ∉ Z) (hk : ∀ view ∈ x.cgpms, FullyKnown view) (hne : columns x ≠ [])
    (hc : Collapsed x) (ord : Orders) (constrained : Bool) (g : Rng) :
    ∃ s, Gibbs.init ord x constrained (.ok ()) g = (.ok s, g) ∧ s.crosscat = x ∧ Samplable Z s.grids x := by
  have hs : x.cgpms ≠ [] := fun e => hne (by unfold columns; rw [e]; rfl)
  have hcc : CC Z x := by
    have hval : Product.validate (cgpmI 2) x.cgpms = .ok () := by
      unfold Product.init at hb
      rcases hv : Product.validate (cgpmI 2) x.cgpms with e | u
      · rw [hv] at hb; cases hb
      · rfl
    exact ⟨⟨fun c hc => tidy_reg (ht c hc), hval, hs⟩, hx, hz⟩
  obtain ⟨s, h1, h2, -⟩ := init_total (c := constrained) ⟨⟨Z, hcc⟩, hc⟩ hne ord g
  exact ⟨s, h1, h2, hb, hs, ht, hx, hz, hk, init_gridded hcc hc hne h1⟩

example (ord : Orders) (g : Rng) : ∃ s, Gibbs.init ord Concrete.pairTogether false (.ok ()) g = (.ok s, g) ∧
    s.crosscat = Concrete.pairTogether ∧ Samplable [5] s.grids Concrete.pairTogether := by
  have h := Concrete.pair_samplable
  refine C113_init h.built h.tidy h.views h.columns h.known (by simp [show columns Concrete.pairTogether = [1] from rfl])
    (fun o ho p hp => ?_) ord false g
  obtain ⟨v, hv, hpv⟩ := List.mem_flatMap.1 hp.1
  exact (h.gridded v hv p hpv o hp.2).1

/-- `transition` with any of the kernels other than `view_assignments` keeps the joint posterior of
the clusters and the hyperparameters: if the state is distributed in proportion to `exp` of
`logpdf_score` before the call, then also after it.  Here `N` is the number of sweeps, and the
call may be restricted to some columns and some rows. -/
theorem C113_transition (hμ : IsDraw μ) {x : Crosscat} {states : List Crosscat} (h : Samplable Z grids x)
    (hs : States Z grids x states) (ord : Orders) {kernels : List String}
    (hk : ∀ k ∈ kernels, k ∈ ["hypers_distributions", "hypers_row_divide", "hypers_column_divide", "row_assignments"])
    {outputs : Option (List Var)} (ho : ∀ o ∈ outputs.getD [], o ∈ columns x) (rowids : Option (List RowId)) {N : Nat}
    (hN : 1 ≤ N) (constrained : Bool) (clock : Nat → ℝ) {w : Crosscat} (hw : w ∈ states) :
    (states.map fun u => stateWeight grids u * probability μ fun g => ∃ s' g' clock',
      Gibbs.Transition ord (some N) none (some kernels) outputs rowids ⟨(⟨u, constrained, grids⟩, g), clock⟩
        (.ok (), ⟨(s', g'), clock'⟩) ∧ SameStates s'.crosscat w).sum = stateWeight grids w := by
  obtain ⟨funcs, L, hf, ⟨K, hm, -⟩, -⟩ := lookup_kernels hμ h ord hk ho rowids
  have hcl := held_classes hs constrained
  have hker := iterate_kernel (hm.kernel _ hcl) N
  have hkeep := iterate_keeps (hm.kernel _ hcl) (hm.keeps _ hcl) N
  have hw' : (⟨w, constrained, grids⟩ : Gibbs) ∈ states.map fun u => (⟨u, constrained, grids⟩ : Gibbs) := List.mem_map_of_mem hw
  have key := hkeep _ (hcl.classFn ⟨w, constrained, grids⟩)
  rw [hcl.sum_single hw', List.map_map] at key
  rw [stateWeight_eq (hs.each w hw)]
  refine Eq.trans ?_ key
  congr 1
  refine List.map_congr_left fun u hu => ?_
  rw [stateWeight_eq (hs.each u hu)]
  change _ = heldWeight grids ⟨u, constrained, grids⟩ * _
  congr 1
  rw [← hker.chance hcl ⟨hs.each u hu, rfl⟩]
  refine congrArg (Pr μ) (Set.ext fun g => ?_)
  constructor
  · rintro ⟨s', g', clock', h1, h2⟩
    exact ⟨(), s', g', (transition_runs hf hN _ clock s' g').1 ⟨clock', h1⟩, h2⟩
  · rintro ⟨_, s', g', h1, h2⟩
    obtain ⟨clock', h3⟩ := (transition_runs hf hN _ clock s' g').2 h1
    exact ⟨s', g', clock', h3, h2⟩

/-- If the kernels include those of the rows, of the hyperparameters of the columns and of those of
the clusters, then after `N` sweeps, from any state, the probability of each state is its share of
the joint posterior up to `ρ ^ N`, with a `ρ < 1` that does not depend on `N` or on where the
sweeps start. -/
theorem C114_rate (hμ : IsDraw μ) {x : Crosscat} {states : List Crosscat} (h : Samplable Z grids x)
    (hs : States Z grids x states) (ord : Orders) {kernels : List String}
    (hk : ∀ k ∈ kernels, k ∈ ["hypers_distributions", "hypers_row_divide", "hypers_column_divide", "row_assignments"])
    (hall : ∀ k ∈ ["hypers_distributions", "hypers_row_divide", "row_assignments"], k ∈ kernels) :
    ∃ ρ : ℝ, 0 ≤ ρ ∧ ρ < 1 ∧ ∀ (N : Nat) (u w : Crosscat) (constrained : Bool) (clock : Nat → ℝ), 1 ≤ N → Variants Z grids x u →
      w ∈ states → |(probability μ fun g => ∃ s' g' clock',
        Gibbs.Transition ord (some N) none (some kernels) none none ⟨(⟨u, constrained, grids⟩, g), clock⟩
          (.ok (), ⟨(s', g'), clock'⟩) ∧ SameStates s'.crosscat w).toReal -
        (stateWeight grids w / (states.map (stateWeight grids)).sum).toReal| ≤ ρ ^ N := by
  obtain ⟨funcs, L, hf, ⟨K, hm, hset⟩, hL⟩ := lookup_kernels hμ h ord hk (outputs := none) (by simp) none
  have hcl := held_classes hs false
  have hker := hm.kernel _ hcl
  obtain ⟨ρ, h0, h1, hρ⟩ := converges hcl (hm.linear _ hcl) hker.cls (hm.stoch _ hcl) (hm.keeps _ hcl)
    (fun s hs' => (heldWeight_ne h (hcl.each s hs')).1) (fun s hs' => (heldWeight_ne h (hcl.each s hs')).2)
    fun u hu w hw => by
      obtain ⟨y, hy, h1, h2⟩ := hset rfl _ hcl w (hcl.each w hw) u (hcl.each u hu)
      have : y = w := hcl.eq hy hw (agree_all (hcl.each y hy) (hcl.each w hw) fun i v hi =>
        ⟨h1 _ (.inr (hL rfl hall i v hi).1), fun o ho => h1 _ (.inr ((hL rfl hall i v hi).2 o ho))⟩)
      rw [← this]
      exact h2
  refine ⟨ρ, h0, h1, fun N u w constrained clock hN hu hw => ?_⟩
  have hw' : (⟨w, false, grids⟩ : Gibbs) ∈ states.map fun u => (⟨u, false, grids⟩ : Gibbs) := List.mem_map_of_mem hw
  have key := hρ N ⟨u, constrained, grids⟩ _ ⟨hu, rfl⟩ hw'
  rw [← (iterate_kernel hker N).chance hcl ⟨hu, rfl⟩, List.map_map] at key
  have e1 : (states.map (heldWeight grids ∘ fun u => (⟨u, false, grids⟩ : Gibbs))) = states.map (stateWeight grids) :=
    List.map_congr_left fun u hu => (stateWeight_eq (hs.each u hu)).symm
  have e2 : heldWeight grids ⟨w, false, grids⟩ = stateWeight grids w := (stateWeight_eq (hs.each w hw)).symm
  rw [e1, e2] at key
  convert key using 4
  refine congrArg (Pr μ) (Set.ext fun g => ?_)
  constructor
  · rintro ⟨s', g', clock', h1, h2⟩
    exact ⟨(), s', g', (transition_runs hf hN _ clock s' g').1 ⟨clock', h1⟩, h2⟩
  · rintro ⟨_, s', g', h1, h2⟩
    obtain ⟨clock', h3⟩ := (transition_runs hf hN _ clock s' g').2 h1
    exact ⟨s', g', clock', h3, h2⟩

/-- The probability of each state tends to its share of the joint posterior. -/
theorem C114_limit (hμ : IsDraw μ) {x : Crosscat} {states : List Crosscat} (h : Samplable Z grids x)
    (hs : States Z grids x states) (ord : Orders) {kernels : List String}
    (hk : ∀ k ∈ kernels, k ∈ ["hypers_distributions", "hypers_row_divide", "hypers_column_divide", "row_assignments"])
    (hall : ∀ k ∈ ["hypers_distributions", "hypers_row_divide", "row_assignments"], k ∈ kernels)
    {u w : Crosscat} (constrained : Bool) (clock : Nat → ℝ) (hu : Variants Z grids x u) (hw : w ∈ states) :
    Filter.Tendsto (fun N : Nat => (probability μ fun g => ∃ s' g' clock',
        Gibbs.Transition ord (some N) none (some kernels) none none ⟨(⟨u, constrained, grids⟩, g), clock⟩
          (.ok (), ⟨(s', g'), clock'⟩) ∧ SameStates s'.crosscat w).toReal)
      Filter.atTop (nhds (stateWeight grids w / (states.map (stateWeight grids)).sum).toReal) := by
  obtain ⟨ρ, h0, h1, hρ⟩ := C114_rate hμ h hs ord hk hall
  rw [tendsto_iff_dist_tendsto_zero]
  refine squeeze_zero' (Filter.Eventually.of_forall fun _ => dist_nonneg) ?_ (tendsto_pow_atTop_nhds_zero_of_lt_one h0 h1)
  filter_upwards [Filter.eventually_ge_atTop 1] with N hN
  exact hρ N u w constrained clock hN hu hw

/-- Two rows of one column, and grids of two points: the states with the two rows together and apart
are different, and the chain leads from the one to the other with its share of the posterior. -/
example (hμ : IsDraw μ) (ord : Orders) (clock : Nat → ℝ) : ∃ states, States [5] Concrete.twoGrids Concrete.pairTogether states ∧
    ∃ w ∈ states, SameStates Concrete.pairApart w ∧ ¬ SameStates Concrete.pairTogether w ∧
      Filter.Tendsto (fun N : Nat => (probability μ fun g => ∃ s' g' clock',
          Gibbs.Transition ord (some N) none (some ["row_assignments", "hypers_row_divide", "hypers_distributions"]) none none
            ⟨(⟨Concrete.pairTogether, false, Concrete.twoGrids⟩, g), clock⟩ (.ok (), ⟨(s', g'), clock'⟩) ∧
          SameStates s'.crosscat w).toReal)
        Filter.atTop (nhds (stateWeight Concrete.twoGrids w / (states.map (stateWeight Concrete.twoGrids)).sum).toReal) := by
  obtain ⟨states, hs⟩ := C113_states Concrete.pair_samplable
  obtain ⟨w, hw, e⟩ := hs.all _ Concrete.pair_apart
  refine ⟨states, hs, w, hw, e, fun h => Concrete.pair_differ (sameStates_trans h (sameStates_symm e)), ?_⟩
  exact C114_limit hμ Concrete.pair_samplable hs ord (by simp) (by simp) false clock Concrete.pair_self hw

/-- A call for one row and one column. -/
example (hμ : IsDraw μ) (ord : Orders) (clock : Nat → ℝ) {states : List Crosscat} (hs : States [5] Concrete.twoGrids Concrete.pairTogether states)
    {w : Crosscat} (hw : w ∈ states) :
    (states.map fun u => stateWeight Concrete.twoGrids u * probability μ fun g => ∃ s' g' clock',
      Gibbs.Transition ord (some 3) none (some ["row_assignments", "hypers_distributions"]) (some [1]) (some [some 0])
        ⟨(⟨u, false, Concrete.twoGrids⟩, g), clock⟩ (.ok (), ⟨(s', g'), clock'⟩) ∧ SameStates s'.crosscat w).sum =
      stateWeight Concrete.twoGrids w :=
  C113_transition hμ Concrete.pair_samplable hs ord (by simp) (fun o ho => by
    have ho : o ∈ [(1 : Var)] := ho
    exact ho) _ (by norm_num) false clock hw

end Cgpm2.Props
