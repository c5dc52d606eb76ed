import Verif.Lemmas.ConcreteUpdate
import Verif.Lemmas.ExportState

/-!
# Concrete CrossCats for what the C++ engine is told (helpers)
-/

namespace Cgpm2.Concrete
open Spec Props Views

noncomputable def berCol (v : Var) : Prim := .bernoulli (Bernoulli.init [v] [] [] [])

theorem berCol_tidy {Z : List Var} {v : Var} (hv : v ∉ Z) : Tidy Z 0 (berCol v : Prim) :=
  .prim0 ⟨_, [], .bernoulli .., by simp [LegalHypers, Bernoulli.init, Dict.get?], rfl⟩ rfl
    (by simp [berCol, Prim.outputs, Bernoulli.init, Prim.kind, hv])

noncomputable def berView (z v : Var) : View :=
  (.flexMix ⟨crpCol z, FlexArray.init (.product ⟨[berCol v]⟩ : Node Prim) z, []⟩ : Node (Node Prim))

theorem berProduct_tidy {Z : List Var} {v : Var} (hv : v ∉ Z) :
    Tidy Z 1 (.product ⟨[berCol v]⟩ : Node Prim) := by
  refine .product (n := 0) (cs := [berCol v]) (fun c hc => ?_) (by simp) rfl
  rw [List.mem_singleton.1 hc]
  exact berCol_tidy hv

theorem berProduct_empty {Z : List Var} {v : Var} (h : Tidy Z 1 (.product ⟨[berCol v]⟩ : Node Prim))
    (r : RowId) : HoldsNothing (cgpmI 1) (.product ⟨[berCol v]⟩ : Node Prim) r := by
  refine (holdsNothing_iff (cgpmTLaws Z 1) (tidy_reg h) r).2 fun w => ?_
  refine ProdTab.cell_none_iff.2 fun c hc => ?_
  rw [List.mem_singleton.1 (show c ∈ [berCol v] from hc)]
  change (primTab Z).cell (berCol v) r w = none
  simp [primTab, show (berCol v).data = [] from rfl]

theorem berView_tidy {Z : List Var} {z v : Var} (hz : z ∈ Z) (hv : v ∉ Z) : Tidy Z 2 (berView z v) := by
  have hb := berProduct_tidy hv
  refine .flexMix (n := 1) (d := crpCol z) (b := (.product ⟨[berCol v]⟩ : Node Prim))
    ⟨_, [], .crp .., by simp [LegalHypers, Crp.init], rfl⟩ rfl (.inl rfl) ?_ rfl hb (berProduct_empty hb) ?_ ?_ rfl
  · intro w hw
    have hw : w ∈ [z] := hw
    rw [List.mem_singleton.1 hw]; exact hz
  · refine (cgpmFrame Z 1).zero _ (tidy_reg hb)
      (fun r => (holdsNothing_iff (cgpmTLaws Z 1) (tidy_reg hb) r).1 (berProduct_empty hb r)) ?_
    refine (sumScore_fin_iff primI.logpdfScore [berCol v]).2 fun p hp => ?_
    rw [List.mem_singleton.1 hp]
    have hr := tidy_reg (berCol_tidy hv)
    exact ⟨_, Prim.logpdfScore_eq hr.1.1 hr.1.2⟩
  · intro w hw hw'
    have hw : w ∈ [z] := hw
    have hw' : w ∈ [v] := hw'
    rw [List.mem_singleton.1 hw, List.mem_singleton] at hw'
    exact hv (hw' ▸ hz)

/-- One column, a Bernoulli. -/
noncomputable def coins : Crosscat := ⟨[berView 5 1]⟩

theorem coins_tidy : Tidy [5] 3 (whole coins) := by
  refine .product (n := 2) (cs := [berView 5 1]) (fun c hc => ?_) (by simp) rfl
  rw [List.mem_singleton.1 hc]
  exact berView_tidy (by simp) (by simp)

theorem coins_crosscat : IsCrosscat coins := by
  intro v hv
  have hv : v ∈ [berView 5 1] := hv
  rw [List.mem_singleton.1 hv]
  exact ⟨_, ⟨[berCol 1]⟩, rfl, rfl, rfl⟩

theorem coins_unsupported : ¬ Supported coins := by
  intro h
  have hp : OfColumn coins 1 (berCol 1) := ⟨by
    change _ ∈ ([crpCol 5, berCol 1] : List Prim)
    simp, rfl⟩
  rcases h 1 (by change (1 : Var) ∈ [(1 : Var)]; simp) _ hp with h | h <;> cases h

theorem duo_supported : Supported duo := by
  intro o ho p hp
  have hp' : p ∈ ([.crp { Crp.init [5] [] [] [] with data := [(some 0, 0), (some 1, 0)], N := 2, counts := [(0, 2)] },
    catWith 1 [(0, 2), (1, 1)], catCol 1,
    .crp { Crp.init [6] [] [] [] with data := [(some 0, 0), (some 1, 1)], N := 2, counts := [(0, 1), (1, 1)] },
    catWith 2 [(0, 1)], catWith 2 [(1, 0)], catCol 2] : List Prim) := hp.1
  have hpo := hp.2
  rw [duo_columns] at ho
  simp only [List.mem_cons, List.not_mem_nil, or_false] at hp' ho
  rcases hp' with rfl | rfl | rfl | rfl | rfl | rfl | rfl
  · rcases ho with rfl | rfl <;> exact absurd hpo (by simp [Prim.outputs, Crp.init])
  · exact .inr rfl
  · exact .inr rfl
  · rcases ho with rfl | rfl <;> exact absurd hpo (by simp [Prim.outputs, Crp.init])
  · exact .inr rfl
  · exact .inr rfl
  · exact .inr rfl

theorem duo_listsRows : ListsRows duo [some 0, some 1] := by
  refine ⟨by simp [Before], fun r => ?_⟩
  rw [duo_rowsInOrder.2 r]
  simp

theorem duo_complete : Complete duo (· ∈ [some 0, some 1]) := fun o ho r hr g =>
  ((rows_of_dataset duo_cc duo_dataset (rowids := [some 0, some 1]) rfl).2.2 o ho r g).2 hr

theorem dedup_listsSet : ListsSet List.dedup := fun l =>
  ⟨fun v => List.mem_dedup, by
    unfold Cpp.numbers
    refine List.Nodup.filterMap ?_ (List.nodup_dedup l)
    intro a b c h1 h2
    cases a <;> cases b <;> simp_all⟩

/-! ## A run of `transition_cpp` -/

/-- Columns 1 and 2 in one view. -/
noncomputable def mono0 : Crosscat := ⟨[catView 5 [1, 2]]⟩

theorem mono0_tidy : Tidy [5] 3 (whole mono0) := by
  refine .product (n := 2) (cs := [catView 5 [1, 2]]) (fun c hc => ?_) (by simp) rfl
  rw [List.mem_singleton.1 hc]
  exact catView_tidy (by simp) (by simp) (by simp) rfl

def monoA : Dict Var Val := [(5, .num 0), (1, .num 2), (2, .num 1)]
def monoB : Dict Var Val := [(5, .num 1), (1, .num 1), (2, .num 0)]

noncomputable def mono5a : FlexMix (Node Prim) :=
  ⟨.crp { Crp.init [5] [] [] [] with data := [(some 0, 0)], N := 1, counts := [(0, 1)] },
   { FlexArray.init (.product ⟨[catCol 1, catCol 2]⟩) 5 with
      cgpms := [(.num 0, .product ⟨[catWith 1 [(0, 2)], catWith 2 [(0, 1)]]⟩)],
      rowidToIndex := [(some 0, .num 0)] },
   [(some 0, .num 0)]⟩
noncomputable def mono5 : FlexMix (Node Prim) :=
  ⟨.crp { Crp.init [5] [] [] [] with data := [(some 0, 0), (some 1, 1)], N := 2, counts := [(0, 1), (1, 1)] },
   { FlexArray.init (.product ⟨[catCol 1, catCol 2]⟩) 5 with
      cgpms := [(.num 0, .product ⟨[catWith 1 [(0, 2)], catWith 2 [(0, 1)]]⟩),
        (.num 1, .product ⟨[catWith 1 [(1, 1)], catWith 2 [(1, 0)]]⟩)],
      rowidToIndex := [(some 0, .num 0), (some 1, .num 1)] },
   [(some 0, .num 0), (some 1, .num 1)]⟩
noncomputable def mono : Crosscat := ⟨[(.flexMix mono5 : Node (Node Prim))]⟩

theorem mono_obs0 (g : Rng) : (cgpmI 3).observe (some 0) monoA [] (whole mono0, g) =
    (.ok (), (whole ⟨[(.flexMix mono5a : Node (Node Prim))]⟩, g)) := rfl
theorem mono_obs1 (g : Rng) : (cgpmI 3).observe (some 1) monoB []
    (whole ⟨[(.flexMix mono5a : Node (Node Prim))]⟩, g) = (.ok (), (whole mono, g)) := rfl

theorem mono_whole {o : Dict Var Val} {a : Int} (h5 : Dict.get? o 5 = some (.num (a : ℚ))) :
    WholeClusters [5] o := by
  intro v hv x hx
  rw [List.mem_singleton.1 hv, h5] at hx
  cases hx; exact ⟨a, rfl⟩

theorem mono_tidy : Tidy [5] 3 (whole mono) :=
  .observe (.observe mono0_tidy (mono_whole (a := 0) rfl) (mono_obs0 fun _ => ⟨0, 0⟩))
    (mono_whole (a := 1) rfl) (mono_obs1 fun _ => ⟨0, 0⟩)

theorem mono_crosscat : IsCrosscat mono := by
  intro v hv
  have hv : v ∈ [(.flexMix mono5 : Node (Node Prim))] := hv
  rw [List.mem_singleton.1 hv]
  exact ⟨mono5, ⟨[catCol 1, catCol 2]⟩, rfl, rfl, rfl⟩

theorem mono_columns : columns mono = [1, 2] := rfl

theorem mono_plain : ∀ v ∈ columns mono, v ∉ [5] := by
  rw [mono_columns]; simp

theorem mono_cc : CC [5] mono := cc_of_tidy mono_tidy mono_crosscat mono_plain

theorem mono_dataset : crosscatDataset mono = .ok duoData := rfl

/-- Column 2 is left. -/
noncomputable def mono52 : FlexMix (Node Prim) :=
  ⟨.crp { Crp.init [5] [] [] [] with data := [(some 0, 0), (some 1, 1)], N := 2, counts := [(0, 1), (1, 1)] },
   { FlexArray.init (.product ⟨[catCol 2]⟩) 5 with
      cgpms := [(.num 0, .product ⟨[catWith 2 [(0, 1)]]⟩), (.num 1, .product ⟨[catWith 2 [(1, 0)]]⟩)],
      rowidToIndex := [(some 0, .num 0), (some 1, .num 1)] },
   [(some 0, .num 0), (some 1, .num 1)]⟩

theorem mono_singleton : ∃ (t : Int) (g' : Rng) (s : Crosscat), (t = 0 ∨ t = 1) ∧ setViewAssignment 1 none (mono, g7) =
    (.ok ⟨[(.flexMix mono52 : Node (Node Prim)), (.flexMix (duo7 t) : Node (Node Prim))]⟩, (s, g')) := by
  obtain ⟨t, g', ht, h⟩ := duo7_observe g7
  refine ⟨t, g', mono, ht, ?_⟩
  have hp : proposalSingleton [catCol 1] [[(some 0, [(1, .num 2)]), (some 1, [(1, .num 1)])]] g7 =
      (.ok (.flexMix (duo7 t) : Node (Node Prim)), g') := by
    unfold proposalSingleton
    rw [show randint g7 = (.ok 7, g7) from randint7]
    change (match observeAll [(some 0, [(1, .num 2)]), (some 1, [(1, .num 1)])] (catView 7 [1], g7) with
      | (.ok _, (view, g')) => ((.ok view, g') : Except Err View × Rng)
      | (.error e, (_, g')) => (.error e, g')) = _
    rw [h]
  exact setSingleton_run (i0 := 0) (v0 := (.flexMix mono5 : Node (Node Prim)))
    (x1 := ⟨[]⟩) (x2 := ⟨[(.flexMix mono52 : Node (Node Prim))]⟩)
    rfl rfl rfl rfl hp rfl rfl (by rcases ht with rfl | rfl <;> rfl)

theorem mono_join (t : Int) (ht : t = 0 ∨ t = 1) (g : Rng) : ∃ s, setViewAssignment 2 (some 1)
    (⟨[(.flexMix mono52 : Node (Node Prim)), (.flexMix (duo7 t) : Node (Node Prim))]⟩, g) =
    (.ok ⟨[(.flexMix (duo72 t) : Node (Node Prim))]⟩, (s, g)) := by
  refine ⟨_, setExisting_run (i0 := 0) (i1 := 1) (v0 := (.flexMix mono52 : Node (Node Prim)))
    (v1 := (.flexMix (duo7 t) : Node (Node Prim))) (v1' := (.flexMix (duo7 t) : Node (Node Prim)))
    (b := [catCol 2]) (d := [[(some 0, [(2, .num 1)]), (some 1, [(2, .num 0)])]])
    (x1 := ⟨[(.flexMix (duo7 t) : Node (Node Prim))]⟩) (x2 := ⟨[(.flexMix (duo7 t) : Node (Node Prim))]⟩)
    (x3 := ⟨[]⟩) (p := (.flexMix (duo72 t) : Node (Node Prim))) ?_ ?_ (by simp) rfl rfl ?_ ?_ ?_ ?_ rfl ?_ ?_⟩
  all_goals rcases ht with rfl | rfl
  all_goals rfl

/-- The numbers of a list, each once, in increasing order. -/
def sortedSet (l : List Int) : List Int := l.dedup.insertionSort (· ≤ ·)

theorem sortedSet_enumerates : Enumerates sortedSet := fun l => by
  have hp := List.perm_insertionSort (· ≤ ·) l.dedup
  exact ⟨hp.nodup_iff.2 (List.nodup_dedup l), fun i => by
    unfold sortedSet; rw [hp.mem_iff, List.mem_dedup]⟩

theorem sortedSet_inOrder : InOrder sortedSet := by
  intro l n h
  have hp := List.perm_insertionSort (· ≤ ·) l.dedup
  have hn : ((List.range n).map Int.ofNat).Nodup := List.nodup_range.map fun a b e => Int.ofNat.inj e
  have hq : l.dedup.Perm ((List.range n).map Int.ofNat) := by
    refine (List.perm_ext_iff_of_nodup (List.nodup_dedup l) hn).2 fun i => ?_
    rw [List.mem_dedup, h, List.mem_map]
    constructor
    · rintro ⟨h0, h1⟩
      obtain ⟨m, rfl⟩ := Int.eq_ofNat_of_zero_le h0
      exact ⟨m, List.mem_range.2 (by exact_mod_cast h1), rfl⟩
    · rintro ⟨m, hm, rfl⟩
      exact ⟨Int.natCast_nonneg m, Int.ofNat_lt.2 (List.mem_range.1 hm)⟩
  refine (hp.trans hq).eq_of_pairwise (fun a b _ _ h h' => le_antisymm h h')
    (List.pairwise_insertionSort _ _) ?_
  rw [List.pairwise_map]
  exact List.pairwise_lt_range.imp fun h => Int.ofNat_le.2 h.le

theorem mono_update : ∃ x' g', updateCrosscat sortedSet duoData duoAnswer (mono, g7) = (.ok (), (x', g')) := by
  obtain ⟨t, g', s0, ht, h⟩ := mono_singleton
  obtain ⟨s, h2⟩ := mono_join t ht g'
  obtain ⟨v, h3⟩ := duo_rows1 t ht g'
  refine ⟨⟨[v]⟩, g', updateCrosscat_run (rowids := [some 0, some 1]) (us := [()]) rfl rfl rfl
    (mapL_one (f := fun br : List Nat × List Int => moveBlock sortedSet [1, 2] [some 0, some 1] br.1 br.2)
      (a := ([0, 1], [0, 1]))
      (moveBlock_run (m0 := 1) (ms := [2]) (i := 0) (v := (.flexMix (duo72 t) : Node (Node Prim))) rfl
        (reassign_run h) (mapL_one (f := fun m => reassign m (some 1)) (reassign_run h2)) ?_ rfl
        (mapL_two (f := moveRows [some 0, some 1]) (a := [0]) (a' := [1]) (duo_rows0 t ht g') h3)))⟩
  rcases ht with rfl | rfl <;> rfl

theorem mono_supported : Supported mono := by
  intro o ho p hp
  have hp' : p ∈ ([.crp { Crp.init [5] [] [] [] with data := [(some 0, 0), (some 1, 1)], N := 2, counts := [(0, 1), (1, 1)] },
    catWith 1 [(0, 2)], catWith 2 [(0, 1)], catWith 1 [(1, 1)], catWith 2 [(1, 0)], catCol 1, catCol 2] : List Prim) := hp.1
  have hpo := hp.2
  rw [mono_columns] at ho
  simp only [List.mem_cons, List.not_mem_nil, or_false] at hp' ho
  rcases hp' with rfl | rfl | rfl | rfl | rfl | rfl | rfl
  · rcases ho with rfl | rfl <;> exact absurd hpo (by simp [Prim.outputs, Crp.init])
  all_goals exact .inr rfl

theorem mono_rowsInOrder : RowsInOrder mono [0, 1] := by
  refine ⟨by simp, fun r => ?_⟩
  rw [full_hasValue (by rw [mono_columns]; simp)
    (rows_of_dataset mono_cc mono_dataset (rowids := [some 0, some 1]) rfl).2.2 r]
  simp

theorem mono_listsRows : ListsRows mono [some 0, some 1] := by
  refine ⟨by simp [Before], fun r => ?_⟩
  rw [mono_rowsInOrder.2 r]
  simp

theorem mono_complete : Complete mono (· ∈ [some 0, some 1]) := fun o ho r hr g =>
  ((rows_of_dataset mono_cc mono_dataset (rowids := [some 0, some 1]) rfl).2.2 o ho r g).2 hr

theorem mono_numbers : HasNumbers mono := by
  intro o ho p _ _
  rw [mono_columns] at ho
  simp only [List.mem_cons, List.not_mem_nil, or_false] at ho
  refine ⟨some 0, fun g => ?_⟩
  rw [heldCell_eq (cgpmTLaws [5] 3) mono_cc.reg]
  rcases ho with rfl | rfl
  · exact ⟨2, rfl⟩
  · exact ⟨1, rfl⟩

theorem mono_xd : Cpp.getXD (n := 2) mono = .ok [[0, 1]] := rfl

theorem mono_aligned : Aligned mono fun r => ∃ k ∈ [(0 : Int), 1], r = some k := by
  refine (aligned_iff mono_cc _).2 fun v hv r => ?_
  have hv : v ∈ [(.flexMix mono5 : Node (Node Prim))] := hv
  rw [List.mem_singleton.1 hv]
  refine (get?_two (x := .num 0) (y := .num 1)).trans ?_
  simp

/-- Answers with what it was given. -/
def echo : Engine := fun G => .ok ⟨G.xl.assignments.map Int.ofNat, G.xl.viewStates.length,
    G.xd.map fun numbers => numbers.map Int.ofNat⟩

theorem transitionCpp_run {env : Surroundings} {args : CppArgs} {x : Crosscat} {g : Rng} {b : Int × Int}
    {obs : Dict Var (Dict RowId Val)} {G : Given} {reply : Reply}
    (hb : Cpp.budget args.N args.S = .ok b) (hc : args.cols = none) (ho : crosscatDataset x = .ok obs)
    (hne : obs ≠ []) (hG : given env args x b.1 b.2 [] obs = .ok G) (hr : env.engine G = .ok reply) :
    transitionCpp env args (x, g) = updateCrosscat env.unique obs (reply.answer G.mc) (x, g) := by
  unfold transitionCpp
  rw [Py.get_bind]
  dsimp only
  rw [hb, Py.lift_bind]
  dsimp only
  rw [hc]
  dsimp only
  rw [Py.lift_bind]
  dsimp only
  rw [ho, Py.lift_bind]
  dsimp only
  rw [if_neg hne, hG, Py.lift_bind]
  dsimp only
  rw [hr, Py.lift_bind]

theorem mono_given : ∃ G, given ⟨sortedSet, List.dedup, echo⟩ { N := some 1 } mono 1 (-1) [] duoData = .ok G ∧
    ∀ r, echo G = .ok r → r.answer G.mc = duoAnswer := ⟨_, rfl, fun r h => by cases h; rfl⟩

theorem mono_transition : ∃ x' g', transitionCpp ⟨sortedSet, List.dedup, echo⟩ { N := some 1 } (mono, g7) =
    (.ok (), (x', g')) := by
  obtain ⟨G, hG, ha⟩ := mono_given
  obtain ⟨x', g', hu⟩ := mono_update
  refine ⟨x', g', ?_⟩
  rw [transitionCpp_run (b := (1, -1)) (G := G) (reply := _) rfl rfl mono_dataset (by simp [duoData]) hG rfl,
    ha _ rfl]
  exact hu

/-- Answers that the two columns are in one view, and the two rows in different clusters. -/
def joiner : Engine := fun _ => .ok ⟨[0, 0], 1, [[0, 1]]⟩

theorem duo_given : ∃ G, given ⟨List.dedup, List.dedup, joiner⟩ { N := some 1 } duo 1 (-1) [] duoData = .ok G ∧
    (⟨[0, 0], 1, [[0, 1]]⟩ : Reply).answer G.mc = duoAnswer := ⟨_, rfl, rfl⟩

theorem duo_transition : ∃ x' g', transitionCpp ⟨List.dedup, List.dedup, joiner⟩ { N := some 1 } (duo, g7) =
    (.ok (), (x', g')) := by
  obtain ⟨G, hG, ha⟩ := duo_given
  obtain ⟨x', g', hu⟩ := duo_update
  refine ⟨x', g', ?_⟩
  rw [transitionCpp_run (b := (1, -1)) (G := G) (reply := ⟨[0, 0], 1, [[0, 1]]⟩) rfl rfl rfl
    (by simp [duoData]) hG rfl, ha]
  exact hu

/-! ## A categorical column with missing values only -/

noncomputable def blank0 : Crosscat := ⟨[catView 5 [1]]⟩

theorem blank0_tidy : Tidy [5] 3 (whole blank0) := by
  refine .product (n := 2) (cs := [catView 5 [1]]) (fun c hc => ?_) (by simp) rfl
  rw [List.mem_singleton.1 hc]
  exact catView_tidy (by simp) (by simp) (by simp) rfl

noncomputable def blankCol : Prim :=
  .categorical { Categorical.init [1] [] [] [] 3 with data := [(some 0, .nan)] }

noncomputable def blank5 : FlexMix (Node Prim) :=
  ⟨.crp { Crp.init [5] [] [] [] with data := [(some 0, 0)], N := 1, counts := [(0, 1)] },
   { FlexArray.init (.product ⟨[catCol 1]⟩) 5 with
      cgpms := [(.num 0, .product ⟨[blankCol]⟩)], rowidToIndex := [(some 0, .num 0)] },
   [(some 0, .num 0)]⟩
noncomputable def blank : Crosscat := ⟨[(.flexMix blank5 : Node (Node Prim))]⟩

theorem blank_obs (g : Rng) : (cgpmI 3).observe (some 0) [(5, .num 0), (1, .nan)] [] (whole blank0, g) =
    (.ok (), (whole blank, g)) := rfl

theorem blank_tidy : Tidy [5] 3 (whole blank) :=
  .observe blank0_tidy (mono_whole (a := 0) rfl) (blank_obs fun _ => ⟨0, 0⟩)

theorem blank_crosscat : IsCrosscat blank := by
  intro v hv
  have hv : v ∈ [(.flexMix blank5 : Node (Node Prim))] := hv
  rw [List.mem_singleton.1 hv]
  exact ⟨blank5, ⟨[catCol 1]⟩, rfl, rfl, rfl⟩

theorem blank_supported : Supported blank := by
  intro o ho p hp
  have hp' : p ∈ ([.crp { Crp.init [5] [] [] [] with data := [(some 0, 0)], N := 1, counts := [(0, 1)] },
    blankCol, catCol 1] : List Prim) := hp.1
  have hpo := hp.2
  have ho : o ∈ [(1 : Var)] := ho
  simp only [List.mem_cons, List.not_mem_nil, or_false] at hp' ho
  subst ho
  rcases hp' with rfl | rfl | rfl
  · exact absurd hpo (by simp [Prim.outputs, Crp.init])
  all_goals exact .inr rfl

end Cgpm2.Concrete
