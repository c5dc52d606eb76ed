import Verif.Lemmas.ConcreteEdits
import Verif.Lemmas.ViewTogether

/-!
# A concrete CrossCat of two views, with two rows (helpers)
-/

namespace Cgpm2.Concrete
open Spec Props Views

noncomputable def catCol (v : Var) : Prim := .categorical (Categorical.init [v] [] [] [] 3)
noncomputable def crpCol (v : Var) : Prim := .crp (Crp.init [v] [] [] [])

/-- A view of categorical columns. -/
noncomputable def catView (z : Var) (l : List Var) : View :=
  (.flexMix ⟨crpCol z, FlexArray.init (.product ⟨l.map catCol⟩ : Node Prim) z, []⟩ : Node (Node Prim))

theorem catCol_tidy {Z : List Var} {v : Var} (hv : v ∉ Z) : Tidy Z 0 (catCol v : Prim) :=
  .prim0 ⟨_, [], .categorical .., by simp [LegalHypers, Categorical.init, Dict.get?], rfl⟩ rfl
    (by simp [catCol, Prim.outputs, Categorical.init, Prim.kind, hv])

theorem catCol_data (v : Var) : (catCol v).data = [] := rfl

theorem catProduct_tidy {Z : List Var} {l : List Var} (hne : l ≠ []) (hl : ∀ v ∈ l, v ∉ Z)
    (hi : Product.init primI (l.map catCol) = .ok ⟨l.map catCol⟩) :
    Tidy Z 1 (.product ⟨l.map catCol⟩ : Node Prim) := by
  refine .product (n := 0) (cs := l.map catCol) (fun c hc => ?_)
    (fun e => hne (List.map_eq_nil_iff.1 e)) hi
  obtain ⟨v, hv, rfl⟩ := List.mem_map.1 hc
  exact catCol_tidy (hl v hv)

theorem catProduct_empty {Z : List Var} {l : List Var} (h : Tidy Z 1 (.product ⟨l.map catCol⟩ : Node Prim))
    (r : RowId) : HoldsNothing (cgpmI 1) (.product ⟨l.map catCol⟩ : Node Prim) r := by
  refine (holdsNothing_iff (cgpmTLaws Z 1) (tidy_reg h) r).2 fun v => ?_
  refine ProdTab.cell_none_iff.2 fun c hc => ?_
  obtain ⟨w, -, rfl⟩ := List.mem_map.1 (show c ∈ l.map catCol from hc)
  change (primTab Z).cell (catCol w) r v = none
  simp [primTab, catCol_data]

theorem catView_tidy {Z : List Var} {z : Var} {l : List Var} (hne : l ≠ []) (hz : z ∈ Z)
    (hl : ∀ v ∈ l, v ∉ Z) (hi : Product.init primI (l.map catCol) = .ok ⟨l.map catCol⟩) :
    Tidy Z 2 (catView z l) := by
  have hb := catProduct_tidy hne hl hi
  refine .flexMix (n := 1) (d := crpCol z) (b := (.product ⟨l.map catCol⟩ : Node Prim))
    ⟨_, [], .crp .., by simp [LegalHypers, Crp.init], rfl⟩ rfl (.inl rfl) ?_ rfl hb (catProduct_empty hb) ?_ ?_ rfl
  · intro v hv
    have hv : v ∈ [z] := hv
    rw [List.mem_singleton.1 hv]; exact hz
  · refine (cgpmFrame Z 1).zero _ (tidy_reg hb)
      (fun r => (holdsNothing_iff (cgpmTLaws Z 1) (tidy_reg hb) r).1 (catProduct_empty hb r)) ?_
    refine (sumScore_fin_iff primI.logpdfScore (l.map catCol)).2 fun p hp => ?_
    obtain ⟨w, hw, rfl⟩ := List.mem_map.1 hp
    have hr := tidy_reg (catCol_tidy (hl w hw))
    exact ⟨_, Prim.logpdfScore_eq hr.1.1 hr.1.2⟩
  · intro v hv hv'
    have hv : v ∈ [z] := hv
    have hv' : v ∈ (l.map catCol).flatMap Prim.outputs := hv'
    rw [List.mem_singleton.1 hv] at hv'
    obtain ⟨c, hc, hzc⟩ := List.mem_flatMap.1 hv'
    obtain ⟨w, hw, rfl⟩ := List.mem_map.1 hc
    have hzc : z ∈ [w] := hzc
    rw [List.mem_singleton.1 hzc] at hz
    exact hl w hw hz

/-- Columns 1 and 2 in one view, column 3 in another. -/
noncomputable def ccat0 : Crosscat := ⟨[catView 5 [1, 2], catView 6 [3]]⟩

theorem ccat0_tidy : Tidy [5, 6] 3 (whole ccat0) := by
  refine .product (n := 2) (cs := [catView 5 [1, 2], catView 6 [3]]) (fun c hc => ?_) (by simp) rfl
  simp only [List.mem_cons, List.not_mem_nil, or_false] at hc
  rcases hc with rfl | rfl
  · exact catView_tidy (by simp) (by simp) (by simp) rfl
  · exact catView_tidy (by simp) (by simp) (by simp) rfl

def rowA : Dict Var Val := [(5, .num 0), (1, .num 2), (2, .num 1), (6, .num 0), (3, .num 1)]
def rowB : Dict Var Val := [(5, .num 1), (1, .num 1), (6, .num 0), (3, .num 0)]

/-- A categorical column with rows. -/
noncomputable def catWith (v : Var) (rows : List (Nat × Fin 3)) : Prim := .categorical
  { Categorical.init [v] [] [] [] 3 with
    data := rows.map fun r => (some r.1, .num ((r.2 : Nat) : ℚ)), N := rows.length,
    counts := [(rows.map (·.2)).count 0, (rows.map (·.2)).count 1, (rows.map (·.2)).count 2] }

/-- Row 0 is observed. -/
noncomputable def viewA0 : FlexMix (Node Prim) :=
  ⟨.crp { Crp.init [5] [] [] [] with data := [(some 0, 0)], N := 1, counts := [(0, 1)] },
   { FlexArray.init (.product ⟨[catCol 1, catCol 2]⟩) 5 with
      cgpms := [(.num 0, .product ⟨[catWith 1 [(0, 2)], catWith 2 [(0, 1)]]⟩)],
      rowidToIndex := [(some 0, .num 0)] },
   [(some 0, .num 0)]⟩
noncomputable def viewB0 : FlexMix (Node Prim) :=
  ⟨.crp { Crp.init [6] [] [] [] with data := [(some 0, 0)], N := 1, counts := [(0, 1)] },
   { FlexArray.init (.product ⟨[catCol 3]⟩) 6 with
      cgpms := [(.num 0, .product ⟨[catWith 3 [(0, 1)]]⟩)],
      rowidToIndex := [(some 0, .num 0)] },
   [(some 0, .num 0)]⟩
noncomputable def ccat1 : Crosscat := ⟨[(.flexMix viewA0 : Node (Node Prim)), (.flexMix viewB0 : Node (Node Prim))]⟩

/-- Then row 1, which has no value in column 2. -/
noncomputable def viewA : FlexMix (Node Prim) :=
  ⟨.crp { Crp.init [5] [] [] [] with data := [(some 0, 0), (some 1, 1)], N := 2, counts := [(0, 1), (1, 1)] },
   { FlexArray.init (.product ⟨[catCol 1, catCol 2]⟩) 5 with
      cgpms := [(.num 0, .product ⟨[catWith 1 [(0, 2)], catWith 2 [(0, 1)]]⟩),
        (.num 1, .product ⟨[catWith 1 [(1, 1)], catCol 2]⟩)],
      rowidToIndex := [(some 0, .num 0), (some 1, .num 1)] },
   [(some 0, .num 0), (some 1, .num 1)]⟩
noncomputable def viewB : FlexMix (Node Prim) :=
  ⟨.crp { Crp.init [6] [] [] [] with data := [(some 0, 0), (some 1, 0)], N := 2, counts := [(0, 2)] },
   { FlexArray.init (.product ⟨[catCol 3]⟩) 6 with
      cgpms := [(.num 0, .product ⟨[catWith 3 [(0, 1), (1, 0)]]⟩)],
      rowidToIndex := [(some 0, .num 0), (some 1, .num 0)] },
   [(some 0, .num 0), (some 1, .num 0)]⟩
noncomputable def ccat : Crosscat := ⟨[(.flexMix viewA : Node (Node Prim)), (.flexMix viewB : Node (Node Prim))]⟩

theorem viewA_obs0 (g : Rng) : (cgpmI 2).observe (some 0) [(5, .num 0), (1, .num 2), (2, .num 1)] []
    (catView 5 [1, 2], g) = (.ok (), ((.flexMix viewA0 : Node (Node Prim)), g)) := rfl
theorem ccat_obs0 (g : Rng) : (cgpmI 3).observe (some 0) rowA [] (whole ccat0, g) =
    (.ok (), (whole ccat1, g)) := rfl
theorem ccat_obs1 (g : Rng) : (cgpmI 3).observe (some 1) rowB []
    (whole ccat1, g) = (.ok (), (whole ccat, g)) := rfl

theorem rows_whole {o : Dict Var Val} {a b : Int} (h5 : Dict.get? o 5 = some (.num (a : ℚ)))
    (h6 : Dict.get? o 6 = some (.num (b : ℚ))) : WholeClusters [5, 6] o := by
  intro v hv x hx
  simp only [List.mem_cons, List.not_mem_nil, or_false] at hv
  rcases hv with rfl | rfl
  · rw [h5] at hx; cases hx; exact ⟨a, rfl⟩
  · rw [h6] at hx; cases hx; exact ⟨b, rfl⟩

theorem ccat_tidy : Tidy [5, 6] 3 (whole ccat) :=
  .observe (.observe ccat0_tidy (rows_whole (a := 0) (b := 0) rfl rfl) (ccat_obs0 fun _ => ⟨0, 0⟩))
    (rows_whole (a := 1) (b := 0) rfl rfl) (ccat_obs1 fun _ => ⟨0, 0⟩)

theorem ccat_crosscat : IsCrosscat ccat := by
  intro v hv
  have hv : v ∈ [(.flexMix viewA : Node (Node Prim)), (.flexMix viewB : Node (Node Prim))] := hv
  rcases List.mem_cons.1 hv with rfl | hv
  · exact ⟨viewA, ⟨[catCol 1, catCol 2]⟩, rfl, rfl, rfl⟩
  · rw [List.mem_singleton.1 hv]
    exact ⟨viewB, ⟨[catCol 3]⟩, rfl, rfl, rfl⟩

theorem ccat_columns : columns ccat = [1, 2, 3] := rfl

theorem ccat_plain : ∀ v ∈ columns ccat, v ∉ [5, 6] := by
  rw [ccat_columns]; simp

/-- Column 2 moved to the view of column 3. -/
noncomputable def viewA' : FlexMix (Node Prim) :=
  { viewA with array := { viewA.array with
      base := .product ⟨[catCol 1]⟩
      cgpms := [(.num 0, .product ⟨[catWith 1 [(0, 2)]]⟩), (.num 1, .product ⟨[catWith 1 [(1, 1)]]⟩)] } }
noncomputable def viewB' : FlexMix (Node Prim) :=
  { viewB with array := { viewB.array with
      base := .product ⟨[catCol 3, catCol 2]⟩
      cgpms := [(.num 0, .product ⟨[catWith 3 [(0, 1), (1, 0)], catWith 2 [(0, 1)]]⟩)] } }
noncomputable def ccat' : Crosscat := ⟨[(.flexMix viewA' : Node (Node Prim)), (.flexMix viewB' : Node (Node Prim))]⟩

theorem ccat_idx2 : viewIndex ccat [2] = .ok 0 := rfl
theorem ccat_idx3 : viewIndex ccat [3] = .ok 1 := rfl
theorem ccat_remove2 : removeCgpm 2 (.flexMix viewA : Node (Node Prim)) 2 = .ok (.flexMix viewA' : Node (Node Prim)) := rfl
theorem ccat_bases2 : basesOf ccat [2] = .ok ([catCol 2], [[(some 0, [(2, .num 1)])]]) := rfl
theorem ccat_propose2 (g : Rng) : proposalExisting [catCol 2] [[(some 0, [(2, .num 1)])]]
    ((.flexMix viewB : Node (Node Prim)), g) = (.ok (.flexMix viewB' : Node (Node Prim)),
      ((.flexMix viewB : Node (Node Prim)), g)) := rfl

theorem ccat_existing (g : Rng) : setViewAssignment 2 (some 3) (ccat, g) = (.ok ccat', (ccat, g)) := rfl

theorem ccat_proposals (g : Rng) : proposals [2] 0 (ccat, g) =
    (.ok [(.flexMix viewA : Node (Node Prim)), (.flexMix viewB' : Node (Node Prim))], (ccat, g)) := rfl

theorem ccat_settle0 (l : List View) : settle ccat [2] ((.flexMix viewA : Node (Node Prim)) :: l) 0 0 = .ok ccat := rfl
theorem ccat_settle1 : settle ccat [2] [(.flexMix viewA : Node (Node Prim)), (.flexMix viewB' : Node (Node Prim))] 0 1 =
    .ok ccat' := rfl

theorem viewB'_propose : (cgpmTab [5, 6] 2).Reg (.flexMix viewB' : Node (Node Prim)) ∧
    (cgpmTab [5, 6] 2).Reg (.flexMix viewA : Node (Node Prim)) := by
  have h := cc_of_tidy ccat_tidy ccat_crosscat ccat_plain
  obtain ⟨-, -, cur, h1, h2, -⟩ := proposals_ok h (outs := [2]) (by simp)
    (by rw [ccat_columns]; simp) (ccat_proposals fun _ => ⟨0, 0⟩)
  cases h1
  obtain ⟨v, -, hv⟩ := h2 1 _ rfl (by change 1 < 2; omega) (by omega)
  exact ⟨hv.reg, h.viewReg (v := (.flexMix viewA : Node (Node Prim))) List.mem_cons_self⟩

theorem scores_two {v w : View} {o : Var} {a b : Fl} (ha : dataLogp v o = .ok a)
    (hb : dataLogp w o = .ok b) : ([v, w].mapM fun view => do
      let l ← [o].mapM fun output => dataLogp view output
      pure (Fl.sum l)) = .ok [Fl.sum [a], Fl.sum [b]] := by
  simp only [List.mapM_cons, List.mapM_nil, ha, hb]
  rfl

/-- Column 2 stays, or moves to the view of column 3. -/
theorem ccat_transition (g : Rng) : ∃ x' s, transitionViewAssignments [2] 0 (ccat, g) = (.ok x', s) := by
  obtain ⟨hB, hA⟩ := viewB'_propose
  obtain ⟨a, ha⟩ := dataLogp_fin hA (o := 2) (by simp [show (cgpmI 2).outputs (.flexMix viewA : Node (Node Prim)) = [5, 1, 2] from rfl])
  obtain ⟨b, hb⟩ := dataLogp_fin hB (o := 2) (by simp [show (cgpmI 2).outputs (.flexMix viewB' : Node (Node Prim)) = [6, 3, 2] from rfl])
  obtain ⟨a', ha'⟩ := (Fl.sum_fin_iff [.fin a]).2 (by simp)
  obtain ⟨b', hb'⟩ := (Fl.sum_fin_iff [.fin b]).2 (by simp)
  obtain ⟨i, g', h1, h2, -⟩ := logPflipIdx_ok [.fin a', .fin b'] (by simp)
    (by simp [Fl.IsLogP]) (by simp [Fl.exp]; positivity) g
  have hm := scores_two ha hb
  rw [ha', hb'] at hm
  have hi : i = 0 ∨ i = 1 := by simp at h2; omega
  refine ⟨if i = 0 then ccat else ccat', (ccat, g'), ?_⟩
  unfold transitionViewAssignments
  rw [Py.bind_apply, ccat_proposals]
  dsimp only
  rw [Py.bind_apply, hm]
  change (Py.onSnd (logPflipIdx [.fin a', .fin b']) >>= fun sampled =>
    Py.lift (settle ccat [2] [(.flexMix viewA : Node (Node Prim)), (.flexMix viewB' : Node (Node Prim))] 0 sampled))
    (ccat, g) = _
  rw [Py.bind_apply]
  simp only [Py.onSnd, h1]
  rcases hi with rfl | rfl
  · rw [if_pos rfl, ccat_settle0]; rfl
  · rw [if_neg (by simp), ccat_settle1]; rfl

theorem randint7 : randint (fun _ => ⟨7 / (2 ^ 32 - 1), 0⟩) = (.ok 7, fun _ => ⟨7 / (2 ^ 32 - 1), 0⟩) := by
  unfold randint Rng.uniform
  have : Int.fract ((7 : ℝ) / (2 ^ 32 - 1)) = 7 / (2 ^ 32 - 1) := Int.fract_eq_self.2 (by norm_num)
  dsimp only
  rw [this]
  norm_num
  exact ⟨rfl, rfl⟩

/-- A random state whose next integer is 7. -/
noncomputable def g7 : Rng := fun _ => ⟨7 / (2 ^ 32 - 1), 0⟩

noncomputable def view7 : FlexMix (Node Prim) :=
  { rowDivide := .crp { Crp.init [7] [] [] [] with data := [(some 0, 0)], N := 1, counts := [(0, 1)] }
    array := ⟨.product ⟨[catCol 2]⟩, 7, [(.num 0, .product ⟨[catWith 2 [(0, 1)]]⟩)], [(some 0, .num 0)]⟩
    rowidToComponent := [(some 0, .num 0)] }

theorem crp7_first (g : Rng) : ∃ g', (crpCol 7).simulate (some 0) [7] [] [] none g =
    (.ok (.one [(7, .num 0)]), g') := by
  obtain ⟨t, g', h1, h2⟩ := Crp.simulate1_ok (c := Crp.init [7] [] [] []) (Crp.inv_init ..) (by simp [Crp.init]) rfl (r := some 0) (by simp [Crp.init]) g
  have h2 : t ∈ [(0 : Int)] := h2
  obtain rfl := List.mem_singleton.1 h2
  refine ⟨g', ?_⟩
  change simulateMany (Crp.simulate1 _ _ _ _ _) none g = _
  rw [simulateMany_none, h1]
  rfl

theorem observe_drawn {A : Type} {AI : Iface A} {m : RowMix A} {r : RowId} {o i : Dict Var Val} {z : Val}
    {g g' : Rng} (h1 : Dict.get? m.rowidToComponent r = none) (h2 : Dict.get? o m.indexer = none)
    (hs : m.rowDivide.simulate r [m.indexer] (getIntersection m.inputsZ i) [] none g =
      (.ok (.one [(m.indexer, z)]), g'))
    (hx : getIntersection (m.outputsX AI) ((m.indexer, z) :: o) = getIntersection (m.outputsX AI) o) :
    RowMix.observe AI r o i (m, g) = RowMix.observe AI r ((m.indexer, z) :: o) i (m, g') := by
  unfold RowMix.observe
  rw [Py.get_bind, Py.get_bind]
  dsimp only
  simp only [h1, h2, Dict.get?_cons, if_pos, hx, Py.bind_apply, Py.onSnd, hs, RowMix.oneSample, Py.lift_apply, Py.pure_apply]

theorem node_drawn {S : Type} {I : Iface S} {m : FlexMix S} {r : RowId} {o o' : Dict Var Val} {g g' : Rng}
    (h : RowMix.observe (flexArrayI I) r o [] (m, g) = RowMix.observe (flexArrayI I) r o' [] (m, g')) :
    (nodeI I).observe r o [] (.flexMix m, g) = (nodeI I).observe r o' [] (.flexMix m, g') := by
  change Py.inside Node.flexMix (RowMix.observe (flexArrayI I) r o []) (m, g) =
    Py.inside Node.flexMix (RowMix.observe (flexArrayI I) r o' []) (m, g')
  unfold Py.inside
  rw [h]

theorem view7_observe (g : Rng) : ∃ g', observeAll [(some 0, [(2, .num 1)])] (catView 7 [2], g) =
    (.ok (), ((.flexMix view7 : Node (Node Prim)), g')) := by
  obtain ⟨g', h⟩ := crp7_first g
  refine ⟨g', ?_⟩
  have h1 := observe_drawn (AI := flexArrayI (cgpmI 1)) (m := ⟨crpCol 7, FlexArray.init (.product ⟨[catCol 2]⟩ : Node Prim) 7, []⟩)
    (r := some 0) (o := [(2, .num 1)]) (i := []) rfl rfl h rfl
  have h2 : (cgpmI 2).observe (some 0) [(2, .num 1)] [] (catView 7 [2], g) =
      (cgpmI 2).observe (some 0) [(7, .num 0), (2, .num 1)] [] (catView 7 [2], g') := by
    exact node_drawn (I := cgpmI 1) h1
  unfold Views.observeAll
  rw [Py.bind_apply, h2]
  rfl

/-- `set_cgpm_view_assignment(x, 2, None)` on the concrete CrossCat. -/
theorem ccat_singleton : ∃ s, setViewAssignment 2 none (ccat, g7) = (.ok ⟨[(.flexMix viewB : Node (Node Prim)), (.flexMix viewA' : Node (Node Prim)),
      (.flexMix view7 : Node (Node Prim))]⟩, s) := by
  obtain ⟨g', h⟩ := view7_observe g7
  refine ⟨(ccat, g'), ?_⟩
  have hp : proposalSingleton [catCol 2] [[(some 0, [(2, .num 1)])]] g7 =
      (.ok (.flexMix view7 : Node (Node Prim)), g') := by
    unfold proposalSingleton
    rw [show randint g7 = (.ok 7, g7) from randint7]
    change (match observeAll [(some 0, [(2, .num 1)])] (catView 7 [2], g7) with
      | (.ok _, (view, g')) => ((.ok view, g') : Except Err View × Rng)
      | (.error e, (_, g')) => (.error e, g')) = _
    rw [h]
  change setSingleton 2 (ccat, g7) = _
  unfold setSingleton
  change (Py.onSnd (proposalSingleton [catCol 2] [[(some 0, [(2, .num 1)])]]) >>= fun singleton => do
    let x1 ← Py.lift (dropView ccat (.flexMix viewA : Node (Node Prim)))
    let x2 ← Py.lift (restore x1 (.flexMix viewA' : Node (Node Prim)))
    Py.lift (putView x2 singleton)) (ccat, g7) = _
  rw [Py.bind_apply]
  simp only [Py.onSnd, hp]
  rfl

/-- The CrossCat after it. -/
noncomputable def ccat7 : Crosscat := ⟨[(.flexMix viewB : Node (Node Prim)), (.flexMix viewA' : Node (Node Prim)),
  (.flexMix view7 : Node (Node Prim))]⟩

theorem ccat_cc : CC [5, 6] ccat := cc_of_tidy ccat_tidy ccat_crosscat ccat_plain

theorem get?_two {a b r : RowId} {x y : Val} : Dict.get? [(a, x), (b, y)] r ≠ none ↔ r = a ∨ r = b := by
  rw [Dict.get?_cons, Dict.get?_cons]
  by_cases h1 : a = r
  · simp [h1]
  · by_cases h2 : b = r
    · simp [h1, h2]
    · simp [Dict.get?, h1, h2, Ne.symm h1, Ne.symm h2]

theorem ccat_aligned : Aligned ccat fun r => r = some 0 ∨ r = some 1 := by
  refine (aligned_iff ccat_cc _).2 fun v hv r => ?_
  have hv : v ∈ [(.flexMix viewA : Node (Node Prim)), (.flexMix viewB : Node (Node Prim))] := hv
  rcases List.mem_cons.1 hv with rfl | hv
  · exact get?_two (x := .num 0) (y := .num 1)
  · rw [List.mem_singleton.1 hv]
    exact get?_two (x := .num 0) (y := .num 0)

/-- Both rows have a value in column 3. -/
theorem ccat_filled : ∀ r, (r = some 0 ∨ r = some 1) → HasValue ccat [3] r := by
  intro r hr
  refine (hasValue_iff ccat_cc _ _).2 ⟨3, by simp, ?_⟩
  rcases hr with rfl | rfl
  · have : (cgpmTab [5, 6] 3).cell (whole ccat) (some 0) 3 = some (.num 1) := rfl
    dsimp only; rw [this]; simp
  · have : (cgpmTab [5, 6] 3).cell (whole ccat) (some 1) 3 = some (.num 0) := rfl
    dsimp only; rw [this]; simp

/-- Row 1 has none in column 2. -/
theorem ccat_unfilled : ¬ HasValue ccat [2] (some 1) := by
  rw [hasValue_iff ccat_cc]
  rintro ⟨o, ho, h⟩
  obtain rfl := List.mem_singleton.1 ho
  exact h rfl

theorem ccat_apart : ¬ Together ccat 2 3 := by
  rintro ⟨v, hv, h2, h3⟩
  have hv : v ∈ [(.flexMix viewA : Node (Node Prim)), (.flexMix viewB : Node (Node Prim))] := hv
  rcases List.mem_cons.1 hv with rfl | hv
  · have h3 : (3 : Int) ∈ [(1 : Int), 2] := h3
    simp at h3
  · rw [List.mem_singleton.1 hv] at h2
    have h2 : (2 : Int) ∈ [(3 : Int)] := h2
    simp at h2

end Cgpm2.Concrete
