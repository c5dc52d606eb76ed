import Verif.Lemmas.ObserveTotal
import Verif.Lemmas.ConcreteLife

/-!
# The life of an ensemble
-/

namespace Cgpm2.Props
open Spec Views Ensemble Life

/-! ## C98: ensembles -/

/-- C98: a random CrossCat has the columns that were asked for, each of the type that was asked for.
No variable of it, column or cluster variable, is there twice, and it holds nothing. -/
theorem C98_random (env : Outside) (hs : SaneOutside env) (outputs : List Var) (types : List Dist)
    (ht : ∀ d ∈ types, ValidType d) (hne : outputs ≠ []) (hl : outputs.length = types.length)
    (Cd Ci : List (List Var)) (g g' : Rng) (x : Crosscat)
    (h : makeRandomCrosscat env outputs types Cd Ci g = (.ok x, g')) :
    IsCrosscat x ∧ (columns x).Perm outputs ∧ Declared outputs types x ∧
    ((cgpmI 3).outputs (whole x)).Nodup ∧
    (∃ Z, Tidy Z 3 (whole x) ∧ ∀ v ∈ columns x, v ∉ Z) ∧ ∀ r, HoldsNothing (cgpmI 3) (whole x) r := by
  obtain ⟨q, h1, h2, -⟩ := crosscat_ok hs h
  obtain ⟨k1, k2, k3, k4⟩ := made_tidy ht hne h1 h2
  exact ⟨k1, made_columns ht h1 h2, made_declared ht hne hl h1 h2, Product.validate_nodup h2.valid,
    ⟨_, k2, k3⟩, k4⟩

/-- C98: if there are constraints, columns are in one view exactly if `simulate_crp_constrained` gives
them the same number. -/
theorem C98_together (env : Outside) (hs : SaneOutside env) (outputs : List Var) (types : List Dist)
    (ht : ∀ d ∈ types, ValidType d) (Cd Ci : List (List Var)) (hc : ¬ (Cd = [] ∧ Ci = []))
    (g g' : Rng) (x : Crosscat) (h : makeRandomCrosscat env outputs types Cd Ci g = (.ok x, g')) :
    ∃ l g1, env.crpConstrained outputs.length (env.gamma (g 0)) Cd Ci g.next.2 = (.ok l, g1) ∧
      l.length = outputs.length ∧
      ∀ i j (hi : i < outputs.length) (hj : j < outputs.length),
        Together x outputs[i] outputs[j] ↔ l[i]? = l[j]? := by
  obtain ⟨q, h1, h2, g1, h3⟩ := crosscat_ok hs h
  unfold makeRandomPartition at h3
  rw [if_neg hc] at h3
  obtain ⟨l, g2, h4, h3⟩ := run_bind h3
  cases h3
  have hlen := hs.crp _ _ _ _ _ _ _ h4
  obtain ⟨b1, -, b3⟩ := C48_blocks (env.unique l) l (hs.unique l)
  refine ⟨l, _, h4, hlen, fun i j hi hj => ?_⟩
  have hnd : outputs.Nodup := (made_columns ht h1 h2).nodup_iff.1 (List.nodup_append.1 (made_nodup h2)).2.1
  rw [together_iff ht hnd h2 (fun b hb i hi => by
    have := b1.mem_iff.1 (List.mem_flatten.2 ⟨b, hb, hi⟩)
    rw [List.mem_range, hlen] at this
    exact this) hi hj, b3 i j (by omega) (by omega), List.getElem?_eq_getElem (by omega),
    List.getElem?_eq_getElem (by omega), Option.some.injEq]

/-- C98: an ensemble with different columns and valid types is made if in each chain the integers drawn
as cluster variables differ from each other and from the columns. -/
theorem C98_returns (env : Outside) (hs : SaneOutside env) (outputs : List Var) (types : List Dist)
    (ht : ∀ d ∈ types, ValidType d) (hn : outputs.Nodup) (hl : outputs.length = types.length) (chains : Nat) (g : Rng)
    (hd : ∀ n < chains, DrawsApart outputs.length
      (fun k => env.prng (drawnInt g n).toNat (k + outputs.length + 1)) outputs) :
    ∃ cs g', Ensemble.init env outputs [] types chains [] [] g = (.ok cs, g') ∧ cs.length = chains := by
  obtain ⟨cs, h⟩ := forall₂_of (R := fun n c => makeChain env outputs types [] [] (drawnInt g n).toNat = .ok c)
    (l := List.range chains) (fun n hn' => by
      obtain ⟨x, g', h1⟩ := crosscat_run hs ht hl hn (hd n (List.mem_range.1 hn'))
      exact ⟨(whole x, g'), makeChain_ok.2 ⟨x, h1, rfl⟩⟩)
  exact ⟨cs, _, init_run.2 ⟨hl, rfl, h⟩, by rw [← h.length_eq, List.length_range]⟩

/-- C98: so is one with constraints, if `simulate_crp_constrained` returns. -/
theorem C98_returns_constrained (env : Outside) (hs : SaneOutside env) (outputs : List Var) (types : List Dist)
    (ht : ∀ d ∈ types, ValidType d) (hn : outputs.Nodup) (hl : outputs.length = types.length) (chains : Nat) (g : Rng)
    (Cd Ci : List (List Var)) (hc : ¬ (Cd = [] ∧ Ci = []))
    (hd : ∀ n < chains, ∃ l g1, env.crpConstrained outputs.length (env.gamma (env.prng (drawnInt g n).toNat 0)) Cd Ci
      (env.prng (drawnInt g n).toNat).next.2 = (.ok l, g1) ∧ DrawsApart outputs.length g1 outputs) :
    ∃ cs g', Ensemble.init env outputs [] types chains Cd Ci g = (.ok cs, g') ∧ cs.length = chains := by
  obtain ⟨cs, h⟩ := forall₂_of (R := fun n c => makeChain env outputs types Cd Ci (drawnInt g n).toNat = .ok c)
    (l := List.range chains) (fun n hn' => by
      obtain ⟨l, g1, h2, h3⟩ := hd n (List.mem_range.1 hn')
      obtain ⟨x, g', h1⟩ := constrained_run hs ht hl hn hc h2 h3
      exact ⟨(whole x, g'), makeChain_ok.2 ⟨x, h1, rfl⟩⟩)
  exact ⟨cs, _, init_run.2 ⟨hl, rfl, h⟩, by rw [← h.length_eq, List.length_range]⟩

/-- C98: after any calls that return — observations, removals, inference, and queries that return or
raise — every chain of an ensemble is a CrossCat with the columns and types that were asked for, and
holds the cells that were given and not taken out, and no other row. -/
theorem C98_history (env : Outside) (hs : SaneOutside env) (outputs : List Var) (types : List Dist)
    (ht : ∀ d ∈ types, ValidType d) (hne : outputs ≠ []) (chains : Nat)
    (Cd Ci : List (List Var)) (g g' : Rng) (cs cs' : List (Cgpm 3 × Rng))
    (h : Ensemble.init env outputs [] types chains Cd Ci g = (.ok cs, g')) (calls : List Request)
    (hk : ∀ k ∈ calls, k.Proper outputs) (hc : Life calls cs cs') :
    cs'.length = chains ∧ ∀ c ∈ cs', Keeps outputs types (ledger calls) c := by
  obtain ⟨-, h1, h2⟩ := life_chains hs ht hne h hk hc
  exact ⟨h1, fun c hc => chain_keeps (h2 c hc)⟩

/-- C98: the default inference program is inference. -/
theorem C98_default (cols : List Var) (ord : Orders) (env : Surroundings) (con : Constraints)
    (dependencies : Crosscat → Except Err Unit) (N S : Option Int) (outputs : Option (List Var)) :
    Infers cols (defaultProgram ord env con dependencies N S outputs) := by
  intro x g c' h
  unfold defaultProgram whole at h
  dsimp only at h
  rcases h1 : Gibbs.init ord x (decide (con.dependent ≠ [] ∨ con.independent ≠ [])) (dependencies x) g with ⟨e | s, g1⟩
  · rw [h1] at h; cases h
  rw [h1] at h
  dsimp only at h
  rcases h2 : Gibbs.transitionStructureCpp ord env con N S outputs (s, g1) with ⟨e | ⟨⟩, s', g2⟩
  · rw [h2] at h; cases h
  rw [h2] at h
  cases h
  refine ⟨ord, _, _, s, g1, fun _ => 0, [.structureCpp env con N S outputs], ⟨(s', g2), fun _ => 0⟩, h1,
    by simp [Step.Moves], .cons (w1 := ⟨(s', g2), fun _ => 0⟩) ?_ (.nil _), rfl⟩
  change Progress.World.call _ _ = _
  unfold Progress.World.call
  dsimp only
  rw [h2]

/-! ## C99: what an ensemble accepts -/

/-- C99: a CrossCat accepts an observation of columns exactly if none of its cells is there already and
each value is one that the column accepts. -/
theorem C99_crosscat (Z : List Var) (x : Crosscat) (h : Tidy Z 3 (whole x)) (hx : IsCrosscat x)
    (hz : ∀ v ∈ columns x, v ∉ Z) (o : Dict Var Val) (hn : (Dict.keys o).Nodup)
    (ho : ∀ v ∈ Dict.keys o, v ∈ columns x) (r : RowId) (i : Dict Var Val) (g : Rng) :
    (∃ x', (cgpmI 3).observe r o i (whole x, g) = (.ok (), x')) ↔
      ∀ v y, Dict.get? o v = some y → heldCell (cgpmI 3) (whole x) g r v = none ∧
        ∀ p, OfColumn x v p → Accepts p y := by
  rw [← crosscat_accepts (cc_of_tidy h hx hz) hn ho r i g]
  exact ⟨fun ⟨c', h⟩ => ⟨c'.1, c'.2, h⟩, fun ⟨c, g', h⟩ => ⟨(c, g'), h⟩⟩

/-- C99: after any calls, an ensemble accepts an observation of columns exactly if none of its cells was
given before, or all that were have been taken out, and each value is one of the type of the column. -/
theorem C99_observe (env : Outside) (hs : SaneOutside env) (outputs : List Var) (types : List Dist)
    (ht : ∀ d ∈ types, ValidType d) (hne : outputs ≠ []) (chains : Nat) (h1 : 1 ≤ chains)
    (Cd Ci : List (List Var)) (g g' : Rng) (cs cs' : List (Cgpm 3 × Rng))
    (h : Ensemble.init env outputs [] types chains Cd Ci g = (.ok cs, g')) (calls : List Request)
    (hk : ∀ k ∈ calls, k.Proper outputs) (hc : Life calls cs cs')
    (r : RowId) (o : Dict Var Val) (hn : (Dict.keys o).Nodup) (ho : ∀ v ∈ Dict.keys o, v ∈ outputs)
    (i : Option (Dict Var Val)) (multiprocess : Bool) :
    (∃ cs'', Ensemble.observe (cgpmI 3) r o i multiprocess cs' = (.ok (), cs'')) ↔
      ∀ v y, Dict.get? o v = some y → (ledger calls).cells r v = none ∧
        ∀ d, (v, d) ∈ outputs.zip types → ValueOf d y := by
  obtain ⟨hl, h2, h3⟩ := life_chains hs ht hne h hk hc
  constructor
  · rintro ⟨cs'', he⟩
    have he := (C54_observe (cgpmI 3) r o i multiprocess cs' cs'').1 he
    rcases cs' with _ | ⟨c, cs'⟩
    · rw [← h2] at h1; exact absurd h1 (by simp)
    · cases he with
      | cons h4 _ => exact (chain_accepts hl (h3 c List.mem_cons_self) hn ho r _).1 ⟨_, h4⟩
  · intro hall
    obtain ⟨cs'', he⟩ := forall₂_of (R := fun c c' => (cgpmI 3).observe r o (i.getD []) c = (.ok (), c'))
      (fun c hc => (chain_accepts hl (h3 c hc) hn ho r _).2 hall)
    exact ⟨cs'', (C54_observe (cgpmI 3) r o i multiprocess cs' cs'').2 he⟩

/-- C99: taking a row out always returns, also if there is no such row. -/
theorem C99_unobserve (env : Outside) (hs : SaneOutside env) (outputs : List Var) (types : List Dist)
    (ht : ∀ d ∈ types, ValidType d) (hne : outputs ≠ []) (chains : Nat)
    (Cd Ci : List (List Var)) (g g' : Rng) (cs cs' : List (Cgpm 3 × Rng))
    (h : Ensemble.init env outputs [] types chains Cd Ci g = (.ok cs, g')) (calls : List Request)
    (hk : ∀ k ∈ calls, k.Proper outputs) (hc : Life calls cs cs') (r : RowId) (multiprocess : Bool) :
    ∃ cs'', Ensemble.unobserve (cgpmI 3) r multiprocess cs' = (.ok (), cs'') := by
  obtain ⟨hl, h2, h3⟩ := life_chains hs ht hne h hk hc
  obtain ⟨cs'', he⟩ := forall₂_of (R := fun c c' => ∃ a, (cgpmI 3).unobserve r c = (.ok a, c'))
    (fun c hc => by
      obtain ⟨x, τ, e, hx, -⟩ := h3 c hc
      obtain ⟨Z, hcc⟩ := hx.cc
      obtain ⟨c, g⟩ := c
      dsimp only at e
      subst e
      obtain ⟨ob, s', h4, -⟩ := (cgpmTLaws Z 3).unobserve _ r g hcc.reg trivial
      exact ⟨_, _, h4⟩)
  exact ⟨cs'', (C54_unobserve (cgpmI 3) r multiprocess cs' cs'').2 he⟩

/-- C99: after any calls that give no missing value of a Bernoulli or Poisson column and no row with the
id None, inference can be done: in each chain the GibbsCrossCat is made, and any sequence of calls that
leaves the columns in their views returns. -/
theorem C99_infer_partial (env : Outside) (hs : SaneOutside env) (outputs : List Var) (types : List Dist)
    (ht : ∀ d ∈ types, ValidType d) (hne : outputs ≠ []) (chains : Nat)
    (Cd Ci : List (List Var)) (g g' : Rng) (cs cs' : List (Cgpm 3 × Rng))
    (h : Ensemble.init env outputs [] types chains Cd Ci g = (.ok cs, g')) (calls : List Request)
    (hk : ∀ k ∈ calls, k.Proper outputs) (hc : Life calls cs cs')
    (hm : ∀ od ∈ outputs.zip types, od.2.name = "bernoulli" ∨ od.2.name = "poisson" →
      ∀ r, (ledger calls).cells r od.1 ≠ some .nan)
    (hr : ¬ (ledger calls).rows none) (ord : Orders) (constrained : Bool) (clock : Nat → ℝ) (steps : List Step)
    (ho : ∀ t ∈ steps, t.Ordinary outputs) (hst : ∀ t ∈ steps, t.Stays) (c : Cgpm 3 × Rng) (hcc : c ∈ cs') :
    ∃ x s w, c.1 = whole x ∧ Gibbs.init ord x constrained (.ok ()) c.2 = (.ok s, c.2) ∧
      Returns ord steps ⟨(s, c.2), clock⟩ w := by
  obtain ⟨hl, -, h3⟩ := life_chains hs ht hne h hk hc
  exact chain_infers hne hl (h3 c hcc) hm hr ord constrained clock ho hst

/-! ## A concrete ensemble -/

/-- Two chains with a Normal and a Categorical column. -/
theorem pair_made : ∃ cs g', Ensemble.init Concrete.outside [1, 2] [] [⟨"normal", none⟩, ⟨"categorical", some 3⟩]
    2 [] [] Concrete.gseq = (.ok cs, g') ∧ cs.length = 2 :=
  C98_returns Concrete.outside Concrete.outside_sane [1, 2] _ Concrete.pair_types (by simp) rfl 2 Concrete.gseq
    fun _ _ => Concrete.seeded_apart

example : SaneOutside Concrete.outside ∧ (∀ d ∈ [⟨"normal", none⟩, ⟨"categorical", some 3⟩], ValidType d) ∧
    ∀ n < 2, DrawsApart 2 (fun k => Concrete.outside.prng (drawnInt Concrete.gseq n).toNat (k + 2 + 1)) [1, 2] :=
  ⟨Concrete.outside_sane, Concrete.pair_types, fun _ _ => Concrete.seeded_apart⟩

example : ∃ cs g', Ensemble.init Concrete.outside [1, 2] [] [⟨"normal", none⟩, ⟨"categorical", some 3⟩]
    2 [[0, 1]] [] Concrete.gseq = (.ok cs, g') ∧ cs.length = 2 :=
  C98_returns_constrained Concrete.outside Concrete.outside_sane [1, 2] _ Concrete.pair_types (by simp) rfl 2
    Concrete.gseq [[0, 1]] [] (by simp) fun _ _ => ⟨_, _, rfl, Concrete.later_apart 1 (by omega)⟩

/-- With constraints, both columns are put in one view. -/
example : ∃ x g', makeRandomCrosscat Concrete.outside [1, 2] [⟨"normal", none⟩, ⟨"categorical", some 3⟩] [[0, 1]] []
    Concrete.gseq = (.ok x, g') ∧ Together x 1 2 := by
  obtain ⟨x, g', h⟩ := constrained_run (g := Concrete.gseq) (Cd := [[0, 1]]) (Ci := []) Concrete.outside_sane
    Concrete.pair_types (outputs := [1, 2]) rfl (by simp) (by simp) rfl (Concrete.later_apart 1 (by omega))
  obtain ⟨l, g1, h1, -, h2⟩ := C98_together Concrete.outside Concrete.outside_sane [1, 2] _ Concrete.pair_types
    [[0, 1]] [] (by simp) _ _ _ h
  cases h1
  exact ⟨x, g', h, (h2 0 1 (by simp) (by simp)).2 rfl⟩

/-- A row is given, inference is done, a cell of a second row is given, the first row is taken out, and
the score is asked for. -/
example (ord : Orders) : ∃ cs g' cs', Ensemble.init Concrete.outside [1, 2] []
      [⟨"normal", none⟩, ⟨"categorical", some 3⟩] 2 [] [] Concrete.gseq = (.ok cs, g') ∧
    (∀ k ∈ Concrete.story ord, k.Proper [1, 2]) ∧ Life (Concrete.story ord) cs cs' ∧
    (ledger (Concrete.story ord)).cells (some 1) 2 = some (.num 2) ∧
    (ledger (Concrete.story ord)).cells (some 0) 1 = none := by
  obtain ⟨cs, g', h, hlen⟩ := pair_made
  have hs := Concrete.outside_sane
  have ht := Concrete.pair_types
  have hp := Concrete.story_proper ord
  have hp1 : ∀ k ∈ (Concrete.story ord).take 1, k.Proper [1, 2] := fun k hk => hp k (List.mem_of_mem_take hk)
  have hp2 : ∀ k ∈ (Concrete.story ord).take 2, k.Proper [1, 2] := fun k hk => hp k (List.mem_of_mem_take hk)
  have hp3 : ∀ k ∈ (Concrete.story ord).take 3, k.Proper [1, 2] := fun k hk => hp k (List.mem_of_mem_take hk)
  obtain ⟨cs1, h1⟩ := (C99_observe _ hs _ _ ht (by simp) 2 (by simp) _ _ _ _ _ _ h [] (by simp) (.nil cs) (some 0)
    [(1, .num 3), (2, .num 1)] (by simp [Dict.keys]) (by simp [Dict.keys]) none false).2 (by
      intro v y hy
      rw [Dict.get?_cons, Dict.get?_cons] at hy
      split_ifs at hy with e1 e2 <;> cases hy
      · subst e1; exact ⟨rfl, by simp [ValueOf]⟩
      · subst e2; exact ⟨rfl, by simp [ValueOf]; exact ⟨1, by simp⟩⟩)
  have l1 : Life ((Concrete.story ord).take 1) cs cs1 := .cons h1 (.nil _)
  obtain ⟨cs2, h2⟩ := Concrete.program_leads (ord := ord) (cs := cs1) (fun c hc =>
    C99_infer_partial _ hs _ _ ht (by simp) 2 _ _ _ _ _ _ h _ hp1 l1 (by simp)
      (by simp [ledger, Concrete.story, Request.enter, Ledger.observe, Ledger.empty]) ord false (fun _ => 0)
      [.rowAssignments none none] (by simp [Step.Ordinary]) (by simp [Step.Stays]) c hc)
  have l2 : Life ((Concrete.story ord).take 2) cs cs2 := .cons h1 (.cons h2 (.nil _))
  obtain ⟨cs3, h3⟩ := (C99_observe _ hs _ _ ht (by simp) 2 (by simp) _ _ _ _ _ _ h _ hp2 l2 (some 1)
    [(2, .num 2)] (by simp [Dict.keys]) (by simp [Dict.keys]) none true).2 (by
      intro v y hy
      rw [Dict.get?_cons] at hy
      split_ifs at hy with e1 <;> cases hy
      subst e1; exact ⟨rfl, by simp [ValueOf]; exact ⟨2, by simp⟩⟩)
  have l3 : Life ((Concrete.story ord).take 3) cs cs3 := .cons h1 (.cons h2 (.cons h3 (.nil _)))
  obtain ⟨cs4, h4⟩ := C99_unobserve _ hs _ _ ht (by simp) 2 _ _ _ _ _ _ h _ hp3 l3 (some 0) false
  exact ⟨cs, g', _, h, hp, .cons h1 (.cons h2 (.cons h3 (.cons h4 (.cons ⟨_, rfl⟩ (.nil _))))), rfl, rfl⟩

/-- A value that is not a category is not accepted. -/
example : ∃ cs g', Ensemble.init Concrete.outside [1, 2] [] [⟨"normal", none⟩, ⟨"categorical", some 3⟩] 2 [] []
      Concrete.gseq = (.ok cs, g') ∧
    ¬ ∃ cs', Ensemble.observe (cgpmI 3) (some 0) [(2, .num 3)] none false cs = (.ok (), cs') := by
  obtain ⟨cs, g', h, hlen⟩ := pair_made
  refine ⟨cs, g', h, fun h1 => ?_⟩
  have := ((C99_observe _ Concrete.outside_sane _ _ Concrete.pair_types (by simp) 2 (by simp) _ _ _ _ _ _ h [] (by simp)
    (.nil cs) (some 0) [(2, .num 3)] (by simp [Dict.keys]) (by simp [Dict.keys]) none false).1 h1 2 (.num 3) rfl).2
    ⟨"categorical", some 3⟩ (by simp)
  simp only [ValueOf] at this
  obtain ⟨k, i, h2, h3, h4⟩ := this.1 trivial
  cases h2
  have : i = 3 := by exact_mod_cast h4.symm
  omega

end Cgpm2.Props
