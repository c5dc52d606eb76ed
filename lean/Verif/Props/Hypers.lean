import Verif.Lemmas.Hypers
import Verif.Lemmas.Concrete

/-!
# Properties C42 and C43: hyperparameter transitions over the copies of a column
-/

namespace Cgpm2.Props
open Spec

/-- Two Bernoulli columns, one holding rows and one empty. -/
noncomputable def berPair : List Prim := [Concrete.ber2, .bernoulli (Bernoulli.init [2] [] [] [])]

theorem berPair_reachable : ∀ p ∈ berPair, LegallyReachable p ∧ p.kind = .bernoulli := by
  intro p hp
  rcases List.mem_cons.1 hp with rfl | hp
  · exact ⟨Concrete.ber2_legally, rfl⟩
  · rw [List.mem_singleton] at hp
    subst hp
    exact ⟨⟨_, [], .bernoulli .., by simp [LegalHypers, Bernoulli.init, Dict.get?], rfl⟩, rfl⟩

theorem berPair_grids : ∀ n ∈ hyperNames .bernoulli,
    LegalGrid [("alpha", [1 / 2, 2]), ("beta", [1, 3, 3])] n := by
  intro n hn
  simp only [hyperNames, List.mem_cons, List.not_mem_nil, or_false] at hn
  rcases hn with rfl | rfl
  · refine ⟨[1 / 2, 2], rfl, by simp, ?_⟩
    intro v hv _; simp at hv; rcases hv with rfl | rfl <;> norm_num
  · refine ⟨[1, 3, 3], rfl, by simp, ?_⟩
    intro v hv _; simp at hv; rcases hv with rfl | rfl <;> norm_num

/-- C42: whatever the objects, the grids, the random state and the outcome (also an exception),
the hyperparameter transitions change nothing but hyperparameters: each object keeps its class,
rows, statistics and parameters. -/
theorem C42_data (ps : List Prim) (grids : Dict String (List ℝ)) (hypers : Dict String ℝ)
    (rng : Rng) :
    List.Forall₂ SameButHypers ps (transitionHypers grids (ps, rng)).2.1 ∧
    List.Forall₂ SameButHypers ps (transitionHypersFull grids (ps, rng)).2.1 ∧
    List.Forall₂ SameButHypers ps (setHypersAll hypers (ps, rng)).2.1 :=
  ⟨transitionHypers_same grids ps rng, transitionHypersFull_same grids ps rng,
    setHypersAll_same hypers ps rng⟩

/-- C42: when `transition_hypers` returns `h`, every object reports the hyperparameters `h`, and
each hyperparameter is a point of its grid (for NormalUC, whose hyperparameters are whatever dict
the object was created with: each that the first object had). -/
theorem C42_sync (ps : List Prim) (grids : Dict String (List ℝ)) (rng rng' : Rng)
    (h : Dict String ℝ) (ps' : List Prim)
    (e : transitionHypers grids (ps, rng) = (.ok h, (ps', rng'))) :
    ∀ p' ∈ ps', HasHypers p' h ∧
      ∀ n ∈ hyperNames p'.kind,
        (p'.kind ≠ .normalUC ∨ ∀ p ∈ ps, n ∈ Dict.keys p.getHypers) →
        ∃ grid, ∃ v ∈ grid, Dict.get? grids n = some grid ∧ Dict.get? p'.getHypers n = some v := by
  intro p' hp'
  obtain ⟨p, qs, rfl, h1, h2, h3, h4⟩ := transitionHypers_cases e
  obtain ⟨k1, k2⟩ := h2 p' hp'
  refine ⟨k2, fun n hn hk => ?_⟩
  have hmem : n ∈ Dict.keys p.getHypers := by
    rcases hk with hk | hk
    · rw [k1] at hk hn
      exact (Prim.mem_keys_getHypers hk n).2 hn
    · exact hk p List.mem_cons_self
  obtain ⟨grid, v, hg, hv, hh⟩ := h3 n hmem
  obtain ⟨x, hx, hx'⟩ := k2 n hn
  rw [hh] at hx; cases hx
  exact ⟨grid, v, hv, hg, hx'⟩

/-- C42, the version over the whole grid: when `transition_hypers_full` returns, every object
reports the selected hyperparameters, and these take one point from each grid. -/
theorem C42_sync_full (ps : List Prim) (grids : Dict String (List ℝ)) (rng rng' : Rng)
    (h : Dict String ℝ) (scores : List Fl) (ps' : List Prim)
    (e : transitionHypersFull grids (ps, rng) = (.ok (h, scores), (ps', rng'))) :
    List.Forall₂ (fun kg kv => kv.1 = kg.1 ∧ kv.2 ∈ kg.2) grids h ∧ ∀ p' ∈ ps', HasHypers p' h := by
  obtain ⟨h1, h2⟩ := transitionHypersFull_cases e
  exact ⟨(mem_hyperCells.1 h1).imp fun a b hab => ⟨hab.1.symm, hab.2⟩, h2⟩

/-- C42: `transition_hypers` succeeds on objects of any class but NormalUC with legal grids. -/
theorem C42_succeeds (k : Prim.Kind) (hk : k ≠ .normalUC) (ps : List Prim) (hne : ps ≠ [])
    (hp : ∀ p ∈ ps, LegallyReachable p ∧ p.kind = k) (grids : Dict String (List ℝ))
    (hg : ∀ n ∈ hyperNames k, LegalGrid grids n) (rng : Rng) :
    ∃ h, (transitionHypers grids (ps, rng)).1 = .ok h := by
  obtain ⟨h, ps', g', e⟩ := transitionHypers_ok hk (allOf_of_reachable hp) hne hg rng
  exact ⟨h, by rw [e]⟩

example (rng : Rng) : ∃ h,
    (transitionHypers [("alpha", [1 / 2, 2]), ("beta", [1, 3, 3])] (berPair, rng)).1 = .ok h :=
  C42_succeeds .bernoulli (by decide) berPair (by simp [berPair]) berPair_reachable _ berPair_grids rng

/-- C42: the grids `transition_hyper_grids` builds for the objects are legal, so a transition over
them succeeds. -/
theorem C42_own_grids (k : Prim.Kind) (hk : k ≠ .normalUC) (ps : List Prim) (hne : ps ≠ [])
    (hp : ∀ p ∈ ps, LegallyReachable p ∧ p.kind = k) (nGrid : Nat) (hn : 1 ≤ nGrid) (rng : Rng) :
    ∃ grids h, transitionHyperGrids ps nGrid = .ok grids ∧
      (transitionHypers grids (ps, rng)).1 = .ok h := by
  cases ps with
  | nil => exact absurd rfl hne
  | cons p ps =>
    have hc : sameClass (p :: ps) := sameClass_of_allOf fun q hq => (hp q hq).2
    have hpk := (hp p List.mem_cons_self).2
    have : transitionHyperGrids (p :: ps) nGrid = .ok
        (p.constructHyperGrids ((p :: ps).flatMap fun p => nonMissing p.data) nGrid) := by
      unfold transitionHyperGrids
      rw [if_neg (by simpa using hc)]
    obtain ⟨h, hh⟩ := C42_succeeds k hk (p :: ps) hne hp
      (p.constructHyperGrids ((p :: ps).flatMap fun p => nonMissing p.data) nGrid)
      (by
        intro n hn'
        exact legalGrid_own p (by rw [hpk]; exact hk) _ hn n (by rw [hpk]; exact hn')) rng
    exact ⟨_, h, this, hh⟩

example (rng : Rng) : ∃ grids h, transitionHyperGrids berPair 30 = .ok grids ∧
      (transitionHypers grids (berPair, rng)).1 = .ok h :=
  C42_own_grids .bernoulli (by decide) berPair (by simp [berPair]) berPair_reachable 30 (by decide) rng

/-- NormalUC builds no grids, and a transition over them never succeeds. -/
theorem C42_normalUC_fails (ps : List Prim) (hp : ∀ p ∈ ps, p.kind = .normalUC) (nGrid : Nat)
    (rng : Rng) (grids : Dict String (List ℝ)) (hg : transitionHyperGrids ps nGrid = .ok grids)
    (h : Dict String ℝ) : (transitionHypers grids (ps, rng)).1 ≠ .ok h := by
  intro he
  have hgr : grids = [] := by
    unfold transitionHyperGrids at hg
    split at hg
    · cases hg
    · cases ps with
      | nil => cases hg
      | cons p ps =>
        cases hg
        have := hp p List.mem_cons_self
        cases p <;> first | rfl | cases this
  subst hgr
  rcases e : transitionHypers [] (ps, rng) with ⟨r, ps', g'⟩
  rw [e] at he
  have he : r = .ok h := he
  subst he
  have hsame := transitionHypers_same [] ps rng
  rw [e] at hsame
  have hsame : List.Forall₂ SameButHypers ps ps' := hsame
  obtain ⟨p, qs, rfl, h1, h2, h3, h4⟩ := transitionHypers_cases e
  cases hsame with
  | @cons _ q _ qs' ha hb =>
    obtain ⟨k1, k2⟩ := h2 q List.mem_cons_self
    have hpk := hp p List.mem_cons_self
    obtain ⟨x, hx, _⟩ := k2 "m" (by rw [k1, hpk]; simp [hyperNames])
    by_cases hm : "m" ∈ Dict.keys p.getHypers
    · obtain ⟨grid, v, hg, _⟩ := h3 "m" hm
      cases hg
    · rw [h4 "m" hm] at hx; cases hx

example : ∀ p ∈ [Concrete.normUC2], p.kind = .normalUC := by
  intro p hp
  rw [List.mem_singleton] at hp
  subst hp
  rw [show Concrete.normUC2 = step (step (step (.normalUC Concrete.normUC0)
    (.observe (some 0) [(3, .num (5/2))] [])) (.setParams [("mu", 3), ("var", 2)]))
    (.observe (some 2) [(3, .num (-1))] []) from rfl]
  simp only [step, Prim.observe, Prim.setParams, Py.wrap, Prim.kind]

/-- C42: after `set_hypers`, each object reports the given hyperparameters, and its former value
for the others. -/
theorem C42_set_hypers (ps : List Prim) (hypers : Dict String ℝ) (hnd : (Dict.keys hypers).Nodup)
    (rng rng' : Rng) (ps' : List Prim) (e : setHypersAll hypers (ps, rng) = (.ok (), (ps', rng'))) :
    List.Forall₂ (fun p p' => ∀ n ∈ hyperNames p'.kind,
      Dict.get? p'.getHypers n = (Dict.get? hypers n).or (Dict.get? p.getHypers n)) ps ps' := by
  refine (setHypersAll_cases e).imp fun p q h n hn => ?_
  obtain ⟨x, hx, hx'⟩ := h n hn
  rw [hx', ← hx, Dict.get?_update _ _ hnd]
  cases Dict.get? hypers n <;> rfl

/-- C43: one step of `transition_hypers`, for the hyperparameter `n` when the current values are
`h`: the chance of each grid point is its share when each grid point weighs the exponential of the
joint score the objects report with that point substituted. -/
theorem C43_step (k : Prim.Kind) (ps : List Prim)
    (hp : ∀ p ∈ ps, LegallyReachable p ∧ p.kind = k) (grids : Dict String (List ℝ)) (n : String)
    (grid : List ℝ) (hg : Dict.get? grids n = some grid) (hne : grid ≠ []) (h : Dict String ℝ)
    (hk : ∀ v ∈ grid, HypersOk k (Dict.set h n v)) :
    ∃ W : ℝ → ℝ, (∀ v ∈ grid, JointScore ps (Dict.set h n v) (W v)) ∧
      ∀ (rng : Rng) (v : ℝ),
        chance (fun u => (transitionHyper grids h n (ps, withUniform u rng)).1
          = .ok (Dict.set h n v)) = ENNReal.ofReal (share grid W v) :=
  ⟨fun v => total ps (Dict.set h n v),
    fun v hv => total_jointScore (hk v hv) (allOf_of_reachable hp),
    fun rng v => transitionHyper_chance (allOf_of_reachable hp) hg hne hk rng v⟩

example : ∃ W : ℝ → ℝ, (∀ v ∈ [1, 3, 3], JointScore berPair [("alpha", 2), ("beta", v)] (W v)) ∧
    ∀ (rng : Rng) (v : ℝ), chance (fun u =>
      (transitionHyper [("alpha", [1 / 2, 2]), ("beta", [1, 3, 3])] [("alpha", 2), ("beta", 1)]
        "beta" (berPair, withUniform u rng)).1 = .ok [("alpha", 2), ("beta", v)])
        = ENNReal.ofReal (share [1, 3, 3] W v) := by
  have := C43_step .bernoulli berPair berPair_reachable
    [("alpha", [1 / 2, 2]), ("beta", [1, 3, 3])] "beta" [1, 3, 3] rfl (by simp)
    [("alpha", 2), ("beta", 1)] (by
      intro v hv n hn
      simp only [hyperNames, List.mem_cons, List.not_mem_nil, or_false] at hn
      simp at hv
      rcases hn with rfl | rfl
      · exact ⟨2, rfl, fun _ => by norm_num⟩
      · exact ⟨v, rfl, fun _ => by rcases hv with rfl | rfl <;> norm_num⟩)
  exact this

/-- C43, whole transition for the classes with one hyperparameter (CRP, Categorical). -/
theorem C43_single (k : Prim.Kind) (hk : k = .crp ∨ k = .categorical) (ps : List Prim)
    (hne : ps ≠ []) (hp : ∀ p ∈ ps, LegallyReachable p ∧ p.kind = k)
    (grids : Dict String (List ℝ)) (grid : List ℝ) (hg : Dict.get? grids "alpha" = some grid)
    (hgne : grid ≠ []) (hpos : ∀ v ∈ grid, 0 < v) :
    ∃ W : ℝ → ℝ, (∀ v ∈ grid, JointScore ps [("alpha", v)] (W v)) ∧
      ∀ (rng : Rng) (v : ℝ),
        chance (fun u => (transitionHypers grids (ps, withUniform u rng)).1 = .ok [("alpha", v)])
          = ENNReal.ofReal (share grid W v) := by
  have hall := allOf_of_reachable hp
  have hnames : hyperNames k = ["alpha"] := by rcases hk with rfl | rfl <;> rfl
  cases ps with
  | nil => exact absurd rfl hne
  | cons p ps =>
  obtain ⟨a, ha⟩ : ∃ a, p.getHypers = [("alpha", a)] := by
    have := (hp p List.mem_cons_self).2
    rcases hk with rfl | rfl <;> cases p <;> first | exact ⟨_, rfl⟩ | cases this
  have hok : ∀ v ∈ grid, HypersOk k (Dict.set [("alpha", a)] "alpha" v) := by
    intro v hv n hn
    rw [hnames, List.mem_singleton] at hn
    subst hn
    exact ⟨v, rfl, fun _ => hpos v hv⟩
  refine ⟨fun v => total (p :: ps) (Dict.set [("alpha", a)] "alpha" v),
    fun v hv => total_jointScore (hok v hv) hall, fun rng v => ?_⟩
  rw [← transitionHyper_chance hall hg hgne hok rng v]
  apply chance_congr
  intro u _
  obtain ⟨ps', _, s2, s3⟩ := transitionHyper_eval hall hg hok
  obtain ⟨i, x, g', ef, hi⟩ := logFlip_fin hgne
    (fun v => total (p :: ps) (Dict.set [("alpha", a)] "alpha" v)) (withUniform u rng)
  have e1 : transitionHyper grids [("alpha", a)] "alpha" (p :: ps, withUniform u rng)
      = (.ok [("alpha", x)], (ps', g')) := by
    rw [s3, ef]; dsimp only; rw [hi]; rfl
  have e2 : (transitionHypers grids (p :: ps, withUniform u rng)).1 = .ok [("alpha", x)] := by
    unfold transitionHypers
    rw [Py.get_bind]
    dsimp only
    rw [Py.assert_bind_pos (sameClass_of_allOf fun q hq => (hp q hq).2), ha]
    have h0 : (Py.onSnd (permutation (Dict.keys [("alpha", a)])) : Py (List Prim × Rng) _)
        (p :: ps, withUniform u rng) = (.ok ["alpha"], (p :: ps, withUniform u rng)) := rfl
    rw [Py.bind_apply, h0]
    dsimp only
    have h1 : transitionHypersLoop grids ["alpha"] [("alpha", a)] (p :: ps, withUniform u rng)
        = (.ok [("alpha", x)], (ps', g')) := by
      unfold transitionHypersLoop
      rw [Py.bind_apply, e1]
      rfl
    rw [Py.bind_apply, h1]
    dsimp only
    have hx : HypersOk k [("alpha", x)] := hok x (List.mem_of_getElem? hi)
    rw [Py.bind_apply, each_setHypers_ok hx ps' fun q hq => (s2 q hq).2]
    rfl
  rw [e1, e2]
  rfl

example : ∃ W : ℝ → ℝ, (∀ v ∈ [1 / 2, 1, 4], JointScore [Concrete.crp3] [("alpha", v)] (W v)) ∧
    ∀ (rng : Rng) (v : ℝ), chance (fun u => (transitionHypers [("alpha", [1 / 2, 1, 4])]
      ([Concrete.crp3], withUniform u rng)).1 = .ok [("alpha", v)])
        = ENNReal.ofReal (share [1 / 2, 1, 4] W v) :=
  C43_single .crp (Or.inl rfl) _ (by simp)
    (by
      intro p hp; rw [List.mem_singleton] at hp; subst hp
      exact ⟨Concrete.crp3_legally, by rw [Concrete.crp3_eq]; rfl⟩) _ _ rfl (by simp)
    (by intro v hv; simp at hv; rcases hv with rfl | rfl | rfl <;> norm_num)

/-- C43, the version over the whole grid: there is a list of all choices of one point from each
grid, and the chance of each choice is its share when it weighs the exponential of the joint
score the objects report with it. -/
theorem C43_full (k : Prim.Kind) (ps : List Prim)
    (hp : ∀ p ∈ ps, LegallyReachable p ∧ p.kind = k) (grids : Dict String (List ℝ))
    (hnames : Dict.keys grids = hyperNames k) (hg : ∀ n ∈ hyperNames k, LegalGrid grids n) :
    ∃ (cells : List (Dict String ℝ)) (W : Dict String ℝ → ℝ),
      Choices grids cells ∧ cells.length = (grids.map fun kg => kg.2.length).prod ∧
      (∀ c ∈ cells, JointScore ps c (W c)) ∧
      ∀ (rng : Rng) (c : Dict String ℝ),
        chance (fun u => ∃ scores, (transitionHypersFull grids (ps, withUniform u rng)).1
          = .ok (c, scores)) = ENNReal.ofReal (share cells W c) := by
  have hall := allOf_of_reachable hp
  have nd : (Dict.keys grids).Nodup := by rw [hnames]; cases k <;> simp [hyperNames]
  have hcell : ∀ c, c ∈ hyperCells grids ↔
      List.Forall₂ (fun kg kv => kv.1 = kg.1 ∧ kv.2 ∈ kg.2) grids c := by
    intro c
    rw [mem_hyperCells]
    constructor <;> intro h <;> exact h.imp fun a b hab => ⟨hab.1.symm, hab.2⟩
  have hok : ∀ c ∈ hyperCells grids, HypersOk k c := by
    intro c hc n hn
    have hc := (hcell c).1 hc
    have key : ∀ {gr : Dict String (List ℝ)} {c : Dict String ℝ},
        List.Forall₂ (fun kg kv => kv.1 = kg.1 ∧ kv.2 ∈ kg.2) gr c → ∀ grid,
        Dict.get? gr n = some grid → ∃ x ∈ grid, Dict.get? c n = some x := by
      intro gr c h
      induction h with
      | nil => intro grid hh; cases hh
      | @cons a b _ _ hab _ ih =>
        intro grid hh
        obtain ⟨an, ag⟩ := a
        obtain ⟨bn, bv⟩ := b
        obtain ⟨rfl, hb⟩ := hab
        rw [Dict.get?_cons] at hh ⊢
        split at hh
        · rename_i he
          cases hh
          exact ⟨bv, hb, if_pos he⟩
        · rename_i hne
          obtain ⟨x, hx, hx'⟩ := ih grid hh
          exact ⟨x, hx, (if_neg hne).trans hx'⟩
    obtain ⟨grid, hgn, _, hpos⟩ := hg n hn
    obtain ⟨x, hx, hx'⟩ := key hc grid hgn
    exact ⟨x, hx', hpos x hx⟩
  have hlen : ∀ gr : Dict String (List ℝ),
      (hyperCells gr).length = (gr.map fun kg => kg.2.length).prod := by
    intro gr
    induction gr with
    | nil => rfl
    | cons kg gr ih =>
      obtain ⟨n, grid⟩ := kg
      simp [hyperCells, List.length_flatMap, ih]
  have hne : hyperCells grids ≠ [] := by
    intro h
    have h0 := hlen grids
    rw [h, List.length_nil] at h0
    have : 0 ∈ grids.map fun kg => kg.2.length := List.prod_eq_zero_iff.1 h0.symm
    obtain ⟨kg, hkg, h1⟩ := List.mem_map.1 this
    obtain ⟨grid, hgn, hne, _⟩ := hg kg.1 (by
      rw [← hnames]; exact List.mem_map.2 ⟨kg, hkg, rfl⟩)
    have := Dict.get?_of_mem nd (k := kg.1) (v := kg.2) hkg
    rw [hgn] at this; cases this
    exact hne (List.length_eq_zero_iff.1 h1)
  exact ⟨hyperCells grids, total ps, hcell, hlen grids,
    fun c hc => total_jointScore (hok c hc) hall,
    fun rng c => transitionHypersFull_chance hall hok hne rng c⟩

example := C43_full .bernoulli berPair berPair_reachable
  [("alpha", [1 / 2, 2]), ("beta", [1, 3, 3])] rfl berPair_grids

end Cgpm2.Props
