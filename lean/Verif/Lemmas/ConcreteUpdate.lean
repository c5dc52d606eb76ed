import Verif.Lemmas.ConcreteViews
import Verif.Lemmas.CppUpdate
import Verif.Lemmas.ViewRuns

/-!
# A concrete CrossCat of two views, with two rows and no missing cells (helpers)
-/

namespace Cgpm2.Concrete
open Spec Props Views

/-- Columns 1 and 2, in a view each. -/
noncomputable def duo0 : Crosscat := ⟨[catView 5 [1], catView 6 [2]]⟩

theorem duo0_tidy : Tidy [5, 6] 3 (whole duo0) := by
  refine .product (n := 2) (cs := [catView 5 [1], catView 6 [2]]) (fun c hc => ?_) (by simp) rfl
  simp only [List.mem_cons, List.not_mem_nil, or_false] at hc
  rcases hc with rfl | rfl
  · exact catView_tidy (by simp) (by simp) (by simp) rfl
  · exact catView_tidy (by simp) (by simp) (by simp) rfl

def duoA : Dict Var Val := [(5, .num 0), (1, .num 2), (6, .num 0), (2, .num 1)]
def duoB : Dict Var Val := [(5, .num 0), (1, .num 1), (6, .num 1), (2, .num 0)]

noncomputable def duo5a : FlexMix (Node Prim) :=
  ⟨.crp { Crp.init [5] [] [] [] with data := [(some 0, 0)], N := 1, counts := [(0, 1)] },
   { FlexArray.init (.product ⟨[catCol 1]⟩) 5 with
      cgpms := [(.num 0, .product ⟨[catWith 1 [(0, 2)]]⟩)],
      rowidToIndex := [(some 0, .num 0)] },
   [(some 0, .num 0)]⟩
noncomputable def duo6a : FlexMix (Node Prim) :=
  ⟨.crp { Crp.init [6] [] [] [] with data := [(some 0, 0)], N := 1, counts := [(0, 1)] },
   { FlexArray.init (.product ⟨[catCol 2]⟩) 6 with
      cgpms := [(.num 0, .product ⟨[catWith 2 [(0, 1)]]⟩)],
      rowidToIndex := [(some 0, .num 0)] },
   [(some 0, .num 0)]⟩
noncomputable def duo1 : Crosscat := ⟨[(.flexMix duo5a : Node (Node Prim)), (.flexMix duo6a : Node (Node Prim))]⟩
noncomputable def duo5 : FlexMix (Node Prim) :=
  ⟨.crp { Crp.init [5] [] [] [] with data := [(some 0, 0), (some 1, 0)], N := 2, counts := [(0, 2)] },
   { FlexArray.init (.product ⟨[catCol 1]⟩) 5 with
      cgpms := [(.num 0, .product ⟨[catWith 1 [(0, 2), (1, 1)]]⟩)],
      rowidToIndex := [(some 0, .num 0), (some 1, .num 0)] },
   [(some 0, .num 0), (some 1, .num 0)]⟩
noncomputable def duo6 : FlexMix (Node Prim) :=
  ⟨.crp { Crp.init [6] [] [] [] with data := [(some 0, 0), (some 1, 1)], N := 2, counts := [(0, 1), (1, 1)] },
   { FlexArray.init (.product ⟨[catCol 2]⟩) 6 with
      cgpms := [(.num 0, .product ⟨[catWith 2 [(0, 1)]]⟩), (.num 1, .product ⟨[catWith 2 [(1, 0)]]⟩)],
      rowidToIndex := [(some 0, .num 0), (some 1, .num 1)] },
   [(some 0, .num 0), (some 1, .num 1)]⟩
noncomputable def duo : Crosscat := ⟨[(.flexMix duo5 : Node (Node Prim)), (.flexMix duo6 : Node (Node Prim))]⟩

theorem duo_obs0 (g : Rng) : (cgpmI 3).observe (some 0) duoA [] (whole duo0, g) =
    (.ok (), (whole duo1, g)) := rfl
theorem duo_obs1 (g : Rng) : (cgpmI 3).observe (some 1) duoB [] (whole duo1, g) =
    (.ok (), (whole duo, g)) := rfl

theorem duo_tidy : Tidy [5, 6] 3 (whole duo) :=
  .observe (.observe duo0_tidy (rows_whole (a := 0) (b := 0) rfl rfl) (duo_obs0 fun _ => ⟨0, 0⟩))
    (rows_whole (a := 0) (b := 1) rfl rfl) (duo_obs1 fun _ => ⟨0, 0⟩)

theorem duo_crosscat : IsCrosscat duo := by
  intro v hv
  have hv : v ∈ [(.flexMix duo5 : Node (Node Prim)), (.flexMix duo6 : Node (Node Prim))] := hv
  rcases List.mem_cons.1 hv with rfl | hv
  · exact ⟨duo5, ⟨[catCol 1]⟩, rfl, rfl, rfl⟩
  · rw [List.mem_singleton.1 hv]
    exact ⟨duo6, ⟨[catCol 2]⟩, rfl, rfl, rfl⟩

theorem duo_columns : columns duo = [1, 2] := rfl

theorem duo_plain : ∀ v ∈ columns duo, v ∉ [5, 6] := by
  rw [duo_columns]; simp

theorem duo_cc : CC [5, 6] duo := cc_of_tidy duo_tidy duo_crosscat duo_plain

def duoData : Dict Var (Dict RowId Val) :=
  [(1, [(some 0, .num 2), (some 1, .num 1)]), (2, [(some 0, .num 1), (some 1, .num 0)])]

theorem duo_dataset : crosscatDataset duo = .ok duoData := rfl

/-- Both columns in one view, the rows in different clusters. -/
def duoAnswer : Views.Answer := ⟨2, [.categorical, .categorical], [0, 0], 1, [[0, 1]]⟩

/-- The new view of column 1, whose row 1 is in the cluster `t`. -/
noncomputable def duo7 (t : Int) : FlexMix (Node Prim) :=
  if t = 0 then
  { rowDivide := .crp { Crp.init [7] [] [] [] with data := [(some 0, 0), (some 1, 0)], N := 2, counts := [(0, 2)] }
    array := ⟨.product ⟨[catCol 1]⟩, 7, [(.num 0, .product ⟨[catWith 1 [(0, 2), (1, 1)]]⟩)],
      [(some 0, .num 0), (some 1, .num 0)]⟩
    rowidToComponent := [(some 0, .num 0), (some 1, .num 0)] }
  else
  { rowDivide := .crp { Crp.init [7] [] [] [] with data := [(some 0, 0), (some 1, 1)], N := 2, counts := [(0, 1), (1, 1)] }
    array := ⟨.product ⟨[catCol 1]⟩, 7, [(.num 0, .product ⟨[catWith 1 [(0, 2)]]⟩), (.num 1, .product ⟨[catWith 1 [(1, 1)]]⟩)],
      [(some 0, .num 0), (some 1, .num 1)]⟩
    rowidToComponent := [(some 0, .num 0), (some 1, .num 1)] }

noncomputable def duo7a : FlexMix (Node Prim) :=
  { rowDivide := .crp { Crp.init [7] [] [] [] with data := [(some 0, 0)], N := 1, counts := [(0, 1)] }
    array := ⟨.product ⟨[catCol 1]⟩, 7, [(.num 0, .product ⟨[catWith 1 [(0, 2)]]⟩)], [(some 0, .num 0)]⟩
    rowidToComponent := [(some 0, .num 0)] }

theorem duo7_second (g : Rng) : ∃ (t : Int) (g' : Rng), (t = 0 ∨ t = 1) ∧
    duo7a.rowDivide.simulate (some 1) [7] [] [] none g = (.ok (.one [(7, .num t)]), g') := by
  have hi : ({ Crp.init [7] [] [] [] with data := [(some 0, 0)], N := 1, counts := [(0, 1)] } : Crp).Inv := by
    refine ⟨⟨7, rfl⟩, by simp [Dict.keys], by simp [Dict.keys], rfl, fun t => ?_, fun t ht => ?_⟩
    · by_cases h : (0 : Int) = t
      · subst h; rfl
      · simp [Dict.get?, Crp.seated, Dict.values, h]
    · simp [Dict.values] at ht; omega
  obtain ⟨t, g', h1, h2⟩ := Crp.simulate1_ok hi (by simp [Crp.init]) rfl (r := some 1) (by simp) g
  have h2 : t ∈ [(0 : Int), 1] := h2
  refine ⟨t, g', by simpa using h2, ?_⟩
  change simulateMany (Crp.simulate1 _ _ _ _ _) none g = _
  rw [simulateMany_none, h1]

theorem observeAll_cons {r : RowId} {o : Dict Var Val} {rest : List (RowId × Dict Var Val)}
    {s s' : View × Rng} (h : (cgpmI 2).observe r o [] s = (.ok (), s')) :
    observeAll ((r, o) :: rest) s = observeAll rest s' := by
  change ((cgpmI 2).observe r o [] >>= fun _ => observeAll rest) s = _
  rw [Py.bind_apply, h]

theorem duo7_observe (g : Rng) : ∃ (t : Int) (g' : Rng), (t = 0 ∨ t = 1) ∧
    observeAll [(some 0, [(1, .num 2)]), (some 1, [(1, .num 1)])] (catView 7 [1], g) =
      (.ok (), ((.flexMix (duo7 t) : Node (Node Prim)), g')) := by
  obtain ⟨g1, h⟩ := crp7_first g
  obtain ⟨t, g2, ht, h'⟩ := duo7_second g1
  refine ⟨t, g2, ht, ?_⟩
  have h1 := observe_drawn (AI := flexArrayI (cgpmI 1)) (m := ⟨crpCol 7, FlexArray.init (.product ⟨[catCol 1]⟩ : Node Prim) 7, []⟩)
    (r := some 0) (o := [(1, .num 2)]) (i := []) rfl rfl h rfl
  have h2 : (cgpmI 2).observe (some 0) [(1, .num 2)] [] (catView 7 [1], g) =
      (.ok (), ((.flexMix duo7a : Node (Node Prim)), g1)) :=
    (node_drawn (I := cgpmI 1) h1).trans rfl
  have h3 := observe_drawn (AI := flexArrayI (cgpmI 1)) (m := duo7a)
    (r := some 1) (o := [(1, .num 1)]) (i := []) rfl rfl h' rfl
  have h4 : (cgpmI 2).observe (some 1) [(1, .num 1)] [] ((.flexMix duo7a : Node (Node Prim)), g1) =
      (.ok (), ((.flexMix (duo7 t) : Node (Node Prim)), g2)) := by
    refine (node_drawn (I := cgpmI 1) h3).trans ?_
    rcases ht with rfl | rfl
    · rfl
    · rfl
  exact (observeAll_cons h2).trans ((observeAll_cons h4).trans rfl)

theorem duo_singleton : ∃ (t : Int) (g' : Rng), (t = 0 ∨ t = 1) ∧ setViewAssignment 1 none (duo, g7) =
    (.ok ⟨[(.flexMix duo6 : Node (Node Prim)), (.flexMix (duo7 t) : Node (Node Prim))]⟩, (duo, g')) := by
  obtain ⟨t, g', ht, h⟩ := duo7_observe g7
  refine ⟨t, g', ht, ?_⟩
  have hp : proposalSingleton [catCol 1] [[(some 0, [(1, .num 2)]), (some 1, [(1, .num 1)])]] g7 =
      (.ok (.flexMix (duo7 t) : Node (Node Prim)), g') := by
    unfold proposalSingleton
    rw [show randint g7 = (.ok 7, g7) from randint7]
    change (match observeAll [(some 0, [(1, .num 2)]), (some 1, [(1, .num 1)])] (catView 7 [1], g7) with
      | (.ok _, (view, g')) => ((.ok view, g') : Except Err View × Rng)
      | (.error e, (_, g')) => (.error e, g')) = _
    rw [h]
  exact setSingleton_run (i0 := 0) (v0 := (.flexMix duo5 : Node (Node Prim)))
    (x1 := ⟨[(.flexMix duo6 : Node (Node Prim))]⟩) (x2 := ⟨[(.flexMix duo6 : Node (Node Prim))]⟩)
    rfl rfl rfl rfl hp rfl rfl (by rcases ht with rfl | rfl <;> rfl)

/-- After column 2 joined column 1. -/
noncomputable def duo72 (t : Int) : FlexMix (Node Prim) :=
  if t = 0 then
  { rowDivide := .crp { Crp.init [7] [] [] [] with data := [(some 0, 0), (some 1, 0)], N := 2, counts := [(0, 2)] }
    array := ⟨.product ⟨[catCol 1, catCol 2]⟩, 7,
      [(.num 0, .product ⟨[catWith 1 [(0, 2), (1, 1)], catWith 2 [(0, 1), (1, 0)]]⟩)],
      [(some 0, .num 0), (some 1, .num 0)]⟩
    rowidToComponent := [(some 0, .num 0), (some 1, .num 0)] }
  else
  { rowDivide := .crp { Crp.init [7] [] [] [] with data := [(some 0, 0), (some 1, 1)], N := 2, counts := [(0, 1), (1, 1)] }
    array := ⟨.product ⟨[catCol 1, catCol 2]⟩, 7,
      [(.num 0, .product ⟨[catWith 1 [(0, 2)], catWith 2 [(0, 1)]]⟩),
       (.num 1, .product ⟨[catWith 1 [(1, 1)], catWith 2 [(1, 0)]]⟩)],
      [(some 0, .num 0), (some 1, .num 1)]⟩
    rowidToComponent := [(some 0, .num 0), (some 1, .num 1)] }


theorem duo_join (t : Int) (ht : t = 0 ∨ t = 1) (g : Rng) : ∃ s, setViewAssignment 2 (some 1)
    (⟨[(.flexMix duo6 : Node (Node Prim)), (.flexMix (duo7 t) : Node (Node Prim))]⟩, g) =
    (.ok ⟨[(.flexMix (duo72 t) : Node (Node Prim))]⟩, (s, g)) := by
  refine ⟨_, setExisting_run (i0 := 0) (i1 := 1) (v0 := (.flexMix duo6 : Node (Node Prim)))
    (v1 := (.flexMix (duo7 t) : Node (Node Prim))) (v1' := (.flexMix (duo7 t) : Node (Node Prim)))
    (b := [catCol 2]) (d := [[(some 0, [(2, .num 1)]), (some 1, [(2, .num 0)])]])
    (x1 := ⟨[(.flexMix (duo7 t) : Node (Node Prim))]⟩) (x2 := ⟨[(.flexMix (duo7 t) : Node (Node Prim))]⟩)
    (x3 := ⟨[]⟩) (p := (.flexMix (duo72 t) : Node (Node Prim))) ?_ ?_ (by simp) rfl rfl ?_ ?_ ?_ ?_ rfl ?_ ?_⟩
  all_goals rcases ht with rfl | rfl
  all_goals rfl

/-- Row 0 has a cluster of its own. -/
noncomputable def duo73 (t : Int) : FlexMix (Node Prim) :=
  if t = 0 then
  { rowDivide := .crp { Crp.init [7] [] [] [] with data := [(some 1, 0), (some 0, 1)], N := 2, counts := [(0, 1), (1, 1)] }
    array := ⟨.product ⟨[catCol 1, catCol 2]⟩, 7,
      [(.num 0, .product ⟨[catWith 1 [(1, 1)], catWith 2 [(1, 0)]]⟩),
       (.num 1, .product ⟨[catWith 1 [(0, 2)], catWith 2 [(0, 1)]]⟩)],
      [(some 1, .num 0), (some 0, .num 1)]⟩
    rowidToComponent := [(some 1, .num 0), (some 0, .num 1)] }
  else
  { rowDivide := .crp { Crp.init [7] [] [] [] with data := [(some 1, 1), (some 0, 2)], N := 2, counts := [(1, 1), (2, 1)] }
    array := ⟨.product ⟨[catCol 1, catCol 2]⟩, 7,
      [(.num 0, .product ⟨[catCol 1, catCol 2]⟩),
       (.num 1, .product ⟨[catWith 1 [(1, 1)], catWith 2 [(1, 0)]]⟩),
       (.num 2, .product ⟨[catWith 1 [(0, 2)], catWith 2 [(0, 1)]]⟩)],
      [(some 1, .num 1), (some 0, .num 2)]⟩
    rowidToComponent := [(some 1, .num 1), (some 0, .num 2)] }

theorem duo_rows0 (t : Int) (ht : t = 0 ∨ t = 1) (g : Rng) :
    moveRows [some 0, some 1] [0] ((.flexMix (duo72 t) : Node (Node Prim)), g) =
      (.ok (), ((.flexMix (duo73 t) : Node (Node Prim)), g)) := by
  rcases ht with rfl | rfl
  · rfl
  · rfl
theorem duo_rows1 (t : Int) (ht : t = 0 ∨ t = 1) (g : Rng) : ∃ v,
      moveRows [some 0, some 1] [1] ((.flexMix (duo73 t) : Node (Node Prim)), g) = (.ok (), (v, g)) := by
  rcases ht with rfl | rfl
  · exact ⟨_, rfl⟩
  · exact ⟨_, rfl⟩

theorem duo_update : ∃ x' g', updateCrosscat List.dedup duoData duoAnswer (duo, g7) = (.ok (), (x', g')) := by
  obtain ⟨t, g', ht, h⟩ := duo_singleton
  obtain ⟨s, h2⟩ := duo_join t ht g'
  obtain ⟨v, h3⟩ := duo_rows1 t ht g'
  refine ⟨⟨[v]⟩, g', updateCrosscat_run (rowids := [some 0, some 1]) (us := [()]) rfl rfl rfl
    (mapL_one (f := fun br : List Nat × List Int => moveBlock List.dedup [1, 2] [some 0, some 1] br.1 br.2)
      (a := ([0, 1], [0, 1]))
      (moveBlock_run (m0 := 1) (ms := [2]) (i := 0) (v := (.flexMix (duo72 t) : Node (Node Prim))) rfl
        (reassign_run h) (mapL_one (f := fun m => reassign m (some 1)) (reassign_run h2)) ?_ rfl
        (mapL_two (f := moveRows [some 0, some 1]) (a := [0]) (a' := [1]) (duo_rows0 t ht g') h3)))⟩
  rcases ht with rfl | rfl <;> rfl

theorem dedup_enumerates : Enumerates List.dedup :=
  fun l => ⟨List.nodup_dedup l, fun _ => List.mem_dedup⟩

theorem duo_rowsInOrder : RowsInOrder duo [0, 1] := by
  refine ⟨by simp, fun r => ?_⟩
  rw [full_hasValue (by rw [duo_columns]; simp)
    (rows_of_dataset duo_cc duo_dataset (rowids := [some 0, some 1]) rfl).2.2 r]
  simp

end Cgpm2.Concrete
