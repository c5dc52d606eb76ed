import Verif.Lemmas.LifeRun
import Verif.Lemmas.ConcreteTotal

/-!
# A concrete ensemble
-/

namespace Cgpm2.Concrete
open Spec Views Ensemble Life

/-- Libraries: every chain has the random state `gseq`, and constrained columns are put in one view. -/
noncomputable def outside : Outside where
  gamma _ := 1
  prng _ := gseq
  crpConstrained N _ _ _ g := (.ok (List.replicate N 0), g)
  unique l := l.dedup

theorem outside_sane : SaneOutside outside where
  gamma _ := one_pos
  crp N alpha Cd Ci g l g' h := by cases h; simp
  unique l := ⟨l.nodup_dedup, fun a => List.mem_dedup⟩

theorem pair_types : ∀ d ∈ [⟨"normal", none⟩, ⟨"categorical", some 3⟩], ValidType d := by
  intro d hd
  rcases List.mem_cons.1 hd with rfl | hd
  · exact .inr (.inl rfl)
  · rw [List.mem_singleton] at hd
    subst hd
    exact .inr (.inr (.inr ⟨rfl, 3, rfl, by omega⟩))

theorem later_apart (j : Nat) (hj : j < 900) : DrawsApart 2 (fun k => gseq (k + j)) [1, 2] := by
  have h : ∀ m, m < 2 → drawnInt (fun k => gseq (k + j)) m = ((m : Int) + j + 10 : Int) := by
    intro m hm
    change drawnInt gseq (m + j) = _
    rw [gseq_drawn (by omega)]
    push_cast
    ring
  refine ⟨fun m hm hmem => ?_, fun m hm k hk e => ?_⟩
  · rw [h m hm] at hmem
    simp only [List.mem_cons, List.not_mem_nil, or_false] at hmem
    rcases hmem with e | e
    · have e : (m : Int) + j + 10 = 1 := e
      omega
    · have e : (m : Int) + j + 10 = 2 := e
      omega
  · rw [h m hm, h k (by omega)] at e
    have e : (k : Int) + j + 10 = (m : Int) + j + 10 := e
    omega

theorem seeded_apart {n : Nat} : DrawsApart 2 (fun k => outside.prng n (k + 2 + 1)) [1, 2] :=
  later_apart 3 (by omega)

/-- A program that makes a GibbsCrossCat and moves rows between clusters. -/
noncomputable def rowsProgram (ord : Orders) : Cgpm 3 × Rng → Except Err (Cgpm 3 × Rng)
  | ((.product x : Node (Cgpm 2)), g) =>
    match Gibbs.init ord x false (.ok ()) g with
    | (.error e, _) => .error e
    | (.ok s, g1) =>
      match Gibbs.transitionRowAssignments ord none none (s, g1) with
      | (.error e, _) => .error e
      | (.ok _, (s', g2)) => .ok (whole s'.crosscat, g2)
  | _ => .error .attributeError

/-- Calls of an ensemble. -/
noncomputable def story (ord : Orders) : List Request :=
  [.observe (some 0) [(1, .num 3), (2, .num 1)] none false, .transition (rowsProgram ord) true,
    .observe (some 1) [(2, .num 2)] none true, .unobserve (some 0) false, .logpdfScore true]

theorem rows_infers (ord : Orders) (cols : List Var) : Infers cols (rowsProgram ord) := by
  intro x g c' h
  unfold rowsProgram whole at h
  dsimp only at h
  rcases h1 : Gibbs.init ord x false (.ok ()) g with ⟨e | s, g1⟩
  · rw [h1] at h; cases h
  rw [h1] at h
  dsimp only at h
  rcases h2 : Gibbs.transitionRowAssignments ord none none (s, g1) with ⟨e | ⟨⟩, s', g2⟩
  · rw [h2] at h; cases h
  rw [h2] at h
  cases h
  refine ⟨ord, _, _, s, g1, fun _ => 0, [.rowAssignments none none], ⟨(s', g2), fun _ => 0⟩, h1,
    by simp [Step.Moves], .cons (w1 := ⟨(s', g2), fun _ => 0⟩) ?_ (.nil _), rfl⟩
  change Progress.World.call _ _ = _
  unfold Progress.World.call
  dsimp only
  rw [h2]

theorem story_proper (ord : Orders) : ∀ k ∈ story ord, k.Proper [1, 2] := by
  intro k hk
  simp only [story, List.mem_cons, List.not_mem_nil, or_false] at hk
  rcases hk with rfl | rfl | rfl | rfl | rfl
  · simp [Request.Proper, Dict.keys]
  · exact rows_infers ord _
  · simp [Request.Proper, Dict.keys]
  · trivial
  · trivial

theorem program_leads {ord : Orders} {cs : List (Cgpm 3 × Rng)}
    (h : ∀ c ∈ cs, ∃ x s w, c.1 = whole x ∧ Gibbs.init ord x false (.ok ()) c.2 = (.ok s, c.2) ∧
      Returns ord [.rowAssignments none none] ⟨(s, c.2), fun _ => 0⟩ w) :
    ∃ cs', Request.Leads cs cs' (.transition (rowsProgram ord) true) := by
  obtain ⟨cs', he⟩ := forall₂_of (R := fun c c' => rowsProgram ord c = .ok c') (fun c hc => by
    obtain ⟨x, s, w, h1, h2, h3⟩ := h c hc
    obtain ⟨c, g⟩ := c
    dsimp only at h1 h2 h3
    subst h1
    cases h3 with
    | cons h4 h5 =>
      have h4 : Progress.World.call (Gibbs.transitionRowAssignments ord none none) _ = _ := h4
      unfold Progress.World.call at h4
      dsimp only at h4
      rcases h6 : Gibbs.transitionRowAssignments ord none none (s, g) with ⟨e | ⟨⟩, s', g2⟩
      · rw [h6] at h4; cases h4
      refine ⟨(whole s'.crosscat, g2), ?_⟩
      unfold rowsProgram whole
      dsimp only
      rw [h2]
      dsimp only
      rw [h6])
  exact ⟨cs', (Props.C54_transition (rowsProgram ord) true cs cs').2 he⟩

end Cgpm2.Concrete
