import Verif.Lemmas.CoreExec

/-!
# Properties C116, C117: the text of the Core DSL is parsed back, and the program made from it builds
the CrossCat of the AST
-/

namespace Cgpm2.Props
open CoreDsl Spec Views Conversion

/-- C116: parsing the text `compile_ast_to_core_dsl` writes gives the AST back: every AST with at least
one view, at least one distribution in each view, words for names, and numbers with four decimals.  Dicts
without entries are read as `None`. -/
theorem C116_parses {ast : CoreDsl.Ast} (hne : ast ≠ []) (h : ∀ v ∈ ast, ViewWritable v)
    (he : ∀ v ∈ ast, v.1.Exact ∧ ∀ d ∈ v.2, d.Exact) :
    parseCore (compileAst ast) = .ok (ast.map fun v => (asParsed v.1, v.2.map asParsed)) := by
  rw [parseCore_compile hne h]
  congr 1
  refine List.map_congr_left fun v hv => ?_
  rw [loaded_eq, roundDist_exact (he v hv).1]
  congr 1
  refine List.map_congr_left fun d hd => ?_
  rw [loaded_eq, roundDist_exact ((he v hv).2 d hd)]

/-- C116: other numbers are changed by at most half a ten-thousandth, and nothing else is. -/
theorem C116_rounds {ast : CoreDsl.Ast} (hne : ast ≠ []) (h : ∀ v ∈ ast, ViewWritable v) :
    ∃ r : ℚ → ℚ, (∀ v, |r v - v| ≤ 1 / 20000) ∧
      parseCore (compileAst ast) = .ok (ast.map fun v =>
        let change (d : CoreDsl.Dist) : CoreDsl.Dist := ⟨d.output, d.name,
          d.distargs.map (List.map fun kv => (kv.1, r kv.2)), d.hypers.map fun kv => (kv.1, r kv.2)⟩
        (asParsed (change v.1), v.2.map fun d => asParsed (change d))) := by
  refine ⟨rounded, fun v => ?_, ?_⟩
  · unfold rounded
    split
    · simp
    · have h := abs_sub_round (v * 10000)
      have : ((round (v * 10000) : Int) : ℚ) / 10000 - v =
          -((v * 10000 - (round (v * 10000) : Int)) / 10000) := by ring
      rw [this, abs_neg, abs_div, abs_of_pos (by norm_num : (0 : ℚ) < 10000)]
      linarith
  · rw [parseCore_compile hne h]
    congr 1
    refine List.map_congr_left fun v _ => ?_
    dsimp only
    rw [loaded_eq]
    congr 1
    exact List.map_congr_left fun d _ => loaded_eq d

/-- C116 fails for the AST without views: the empty text is `None` to YAML, and the parser raises
TypeError. -/
theorem C116_empty_violated : parseCore (compileAst []) = .error .typeError := rfl

/-- C116 fails for numbers with six decimals, as `generate_random_ast` makes them
(src/sample_crosscat.py:31): 0.000049 is read back as zero. -/
theorem C116_decimals_violated : rounded (49 / 1000000) = 0 := by
  unfold rounded
  have h1 : truncate (49 / 1000000) = 0 := by decide +kernel
  have h2 : round ((49 / 1000000 : ℚ) * 10000) = 0 := by
    rw [round_eq_zero_iff]
    constructor <;> norm_num
  rw [h1, h2]
  norm_num

theorem roundSource_exact {v : CoreDsl.Dist × List CoreDsl.Dist} (h : v.1.Exact ∧ ∀ d ∈ v.2, d.Exact) :
    roundSource v = sourceOf v := by
  unfold roundSource sourceOf
  rw [roundDist_exact h.1]
  congr 1
  exact List.map_congr_left fun d hd => by rw [roundDist_exact (h.2 d hd)]

/-- C117: `interpret_ast` of a sound AST gives a CrossCat without rows that says the same, view by view:
the same variables, classes, numbers of categories and hyperparameters; and `convert_crosscat_to_ast`
gives the AST back, with the hyperparameters that were left out. -/
theorem C117_interprets {ast : CoreDsl.Ast} (h : ∀ v ∈ ast, ViewWritable v) (hk : ∀ v ∈ ast, ViewKnown v)
    (he : ∀ v ∈ ast, v.1.Exact ∧ ∀ d ∈ v.2, d.Exact) (hs : SoundState (ast.map sourceOf)) :
    ∃ x cs, interpretAst ast = .ok x ∧ IsCrosscat x ∧ (∃ Z, Tidy Z 3 (whole x) ∧ ∀ v ∈ columns x, v ∉ Z) ∧
      List.Forall₂ Says (ast.map sourceOf) x.cgpms ∧ convertCrosscat x = .ok cs ∧
      List.Forall₂ (fun v c => GivesBack v.1 c.1 ∧ List.Forall₂ GivesBack v.2 c.2) ast cs := by
  have hm : ast.map roundSource = ast.map sourceOf := List.map_congr_left fun v hv => roundSource_exact (he v hv)
  obtain ⟨x, cs, h1, h2, h3, h4, h5, h6⟩ := interpret_ok h hk (hm ▸ hs)
  refine ⟨x, cs, h1, h2, h3, hm ▸ h4, h5, ?_⟩
  clear h1 h2 h3 h4 h5 hm hs h hk
  induction h6 with
  | nil => exact .nil
  | @cons v c ast cs h6 _ ih =>
    refine .cons ⟨?_, ?_⟩ (ih fun v hv => he v (by simp [hv]))
    · rw [← roundDist_exact (he v (by simp)).1]
      exact h6.1
    · have hd := (he v (by simp)).2
      have h7 := h6.2
      generalize v.2 = ds at hd h7
      generalize c.2 = es at h7
      induction h7 with
      | nil => exact .nil
      | @cons d e ds es h8 _ ih =>
        refine .cons ?_ (ih fun d hd' => hd d (by simp [hd']))
        rw [← roundDist_exact (hd d (by simp))]
        exact h8

/-- C117 fails for a distribution that is not in the table of constructors, such as Bernoulli, one of the
primitives: `interpret_ast` raises KeyError. -/
theorem C117_unknown_violated {v : CoreDsl.Dist × List CoreDsl.Dist} {ast : CoreDsl.Ast}
    (h : ∀ u ∈ v :: ast, ViewWritable u) (hz : Known v.1.name) {before after : List CoreDsl.Dist}
    {d : CoreDsl.Dist} (hv : v.2 = before ++ d :: after) (hb : ∀ e ∈ before, Known e.name)
    (hd : ¬ Known d.name) : interpretAst (v :: ast) = .error .keyError := by
  have hw := h v (by simp)
  obtain ⟨c, hc, -⟩ := compilePrimitive_yaml hw.divide hz
  obtain ⟨cs, hcs, -⟩ := compile_calls (ds := before) fun e he => ⟨hw.dists e (by rw [hv]; simp [he]), hb e he⟩
  have hdy : compilePrimitive (distYaml d) = .error .keyError := by
    rw [distYaml, compilePrimitive, (hw.dists d (by rw [hv]; simp)).name.parse]
    have : Dict.getItem primitiveConstructors d.name = .error .keyError := by
      unfold Known at hd
      simp only [not_or] at hd
      obtain ⟨h1, h2, h3, h4⟩ := hd
      unfold primitiveConstructors Dict.getItem
      rw [Dict.get?, if_neg (Ne.symm h1), Dict.get?, if_neg (Ne.symm h2), Dict.get?, if_neg (Ne.symm h3),
        Dict.get?, if_neg (Ne.symm h4)]
      rfl
    change (Dict.getItem primitiveConstructors d.name >>= _) = _
    rw [this]
    rfl
  have hl : (v.2.map distYaml).mapM compilePrimitive = .error .keyError := by
    rw [hv, List.map_append, List.mapM_append, hcs]
    change (List.mapM compilePrimitive (distYaml d :: after.map distYaml) >>= _) = _
    rw [List.mapM_cons, hdy]
    rfl
  have hr : compileRowMixture (viewBody v) = .error .keyError := by
    rw [compileRowMixture, viewBody, getItem_first, getItem_second (by decide)]
    change (do
      let divide ← compilePrimitive (distYaml v.1)
      let calls ← (v.2.map distYaml).mapM compilePrimitive
      pure (divide, calls) : Except Err _) = _
    rw [hc, hl]
    rfl
  have hg : (viewYaml v).getItem "view".toList = .ok (viewBody v) := by
    simp [viewYaml, Yaml.getItem, Dict.getItem, Dict.get?]
  have hp : compileEmbedded (compileAst (v :: ast)) = .error .keyError := by
    rw [compileEmbedded, yamlLoad_compile (by simp) h]
    change List.mapM (fun view => do
        let v ← view.getItem "view".toList
        compileRowMixture v) (viewYaml v :: ast.map viewYaml) = _
    rw [List.mapM_cons, hg]
    change (compileRowMixture (viewBody v) >>= _) = _
    rw [hr]
    rfl
  unfold interpretAst
  rw [hp]
  rfl

/-- C117 fails for numbers with six decimals, as `generate_random_ast` makes them: the scale 0.000049 of a
Normal is written as zero, and `interpret_ast` raises AssertionError. -/
theorem C117_decimals_violated : interpretAst
    [(⟨100, "crp".toList, none, [("alpha".toList, 1)]⟩,
      [⟨0, "normal".toList, none, [("m".toList, 0), ("r".toList, 1), ("s".toList, 49 / 1000000), ("nu".toList, 1)]⟩])] =
    .error .assertionError := by
  set v : CoreDsl.Dist × List CoreDsl.Dist := (⟨100, "crp".toList, none, [("alpha".toList, 1)]⟩,
      [⟨0, "normal".toList, none, [("m".toList, 0), ("r".toList, 1), ("s".toList, 49 / 1000000), ("nu".toList, 1)]⟩])
    with hv
  obtain ⟨p, h1, h2⟩ := compileEmbedded_compile (ast := [v]) (by simp)
    (by
      intro u hu
      rw [List.mem_singleton] at hu
      subst hu
      refine ⟨⟨by decide, ⟨by decide, by decide⟩, ⟨by decide, by decide⟩⟩, by simp [hv], ?_⟩
      intro d hd
      simp only [hv, List.mem_cons, List.not_mem_nil, or_false] at hd
      subst hd
      exact ⟨by decide, ⟨by decide, by decide⟩, ⟨by decide, by decide⟩⟩)
    (by
      intro u hu
      rw [List.mem_singleton] at hu
      subst hu
      refine ⟨.inr (.inl rfl), ?_⟩
      intro d hd
      simp only [hv, List.mem_cons, List.not_mem_nil, or_false] at hd
      subst hd
      exact .inr (.inr (.inl rfl)))
  obtain ⟨c, rfl⟩ : ∃ c, p = [c] := by
    cases h2 with
    | cons _ h => cases h; exact ⟨_, rfl⟩
  obtain ⟨h3, h4⟩ : execCall c.1 = convertDim (roundSource v).crp ∧
      c.2.mapM execCall = (roundSource v).dims.mapM convertDim := by
    cases h2 with
    | cons h _ => exact h
  have hcrp : ∃ q, convertDim (roundSource v).crp = .ok q := ⟨_, rfl⟩
  obtain ⟨q, hq⟩ := hcrp
  have hn : (roundSource v).dims.mapM convertDim = .error .assertionError := by
    have : (roundSource v).dims = [⟨"normal", [0], [("m", (rounded 0 : ℚ)), ("r", (rounded 1 : ℚ)),
        ("s", (rounded (49 / 1000000) : ℚ)), ("nu", (rounded 1 : ℚ))], none⟩] := rfl
    rw [this, C116_decimals_violated, List.mapM_cons]
    have : convertDim ⟨"normal", [0], [("m", ((rounded 0 : ℚ) : ℝ)), ("r", ((rounded 1 : ℚ) : ℝ)),
        ("s", ((0 : ℚ) : ℝ)), ("nu", ((rounded 1 : ℚ) : ℝ))], none⟩ = .error .assertionError := by
      simp [convertDim, Normal.init, Dict.get?, Except.map]
    rw [this]
    rfl
  have he : execView c = .error .assertionError := by
    unfold execView
    rw [h3, h4, hq, hn]
    rfl
  unfold interpretAst
  rw [h1]
  change (do
    let views ← [c].mapM execView
    Product.init (cgpmI 2) views : Except Err Crosscat) = _
  rw [List.mapM_cons, he]
  rfl

/-! ## An AST -/

/-- Two views: a normal and a categorical column, and a Poisson column. -/
def exampleAst : CoreDsl.Ast :=
  [(⟨100, "crp".toList, none, [("alpha".toList, 3 / 2)]⟩,
      [⟨0, "normal".toList, none, [("m".toList, -7 / 4), ("r".toList, 1), ("s".toList, 2), ("nu".toList, 1 / 4)]⟩,
        ⟨1, "categorical".toList, some [("k".toList, 3)], [("alpha".toList, 1 / 2)]⟩]),
    (⟨101, "crp".toList, none, [("alpha".toList, 1)]⟩,
      [⟨2, "poisson".toList, none, [("a".toList, 1), ("b".toList, 5 / 4)]⟩])]

/-- The text of the second view. -/
example : compileAst (exampleAst.drop 1) = ("- view:\n" ++
    "    row clustering model:\n" ++
    "      - crp{id:101}:\n" ++
    "          distargs:\n" ++
    "          hypers:\n" ++
    "            alpha: 1\n" ++
    "    distribution models:\n" ++
    "      - poisson{id:2}:\n" ++
    "          distargs:\n" ++
    "          hypers:\n" ++
    "            a: 1\n" ++
    "            b: 1.2500\n").toList := by
  have h1 : (1 : ℚ) = truncate 1 := by decide +kernel
  have h2 : ¬ (5 / 4 : ℚ) = truncate (5 / 4) := by
    have : truncate (5 / 4) = 1 := by decide +kernel
    rw [this]; norm_num
  have h3 : truncate 1 = 1 := by decide +kernel
  have h4 : round ((5 / 4 : ℚ) * 10000) = 12500 := by
    rw [show (5 / 4 : ℚ) * 10000 = ((12500 : Int) : ℚ) by norm_num, round_intCast]
  have w1 : writeNumber 1 = "1".toList := by
    rw [writeNumber, if_pos h1, h3]; decide
  have w2 : writeNumber (5 / 4) = "1.2500".toList := by
    rw [writeNumber, if_neg h2, fixed4, h4, if_neg (by norm_num)]; decide
  simp only [exampleAst, List.drop, compileAst, List.flatMap_cons, List.flatMap_nil, compileView,
    compileRowClustering, compileDistributions, compileDistribution, compileDistargs, compileHypers,
    compileKeyVal, w1, w2, Option.getD]
  decide +kernel

theorem exampleAst_writable : ∀ v ∈ exampleAst, ViewWritable v := by
  intro v hv
  simp only [exampleAst, List.mem_cons, List.not_mem_nil, or_false] at hv
  rcases hv with rfl | rfl
  · refine ⟨⟨by decide, ⟨by decide, by decide⟩, ⟨by decide, by decide⟩⟩, by simp, ?_⟩
    intro d hd
    simp only [List.mem_cons, List.not_mem_nil, or_false] at hd
    rcases hd with rfl | rfl
    · exact ⟨by decide, ⟨by decide, by decide⟩, ⟨by decide, by decide⟩⟩
    · exact ⟨by decide, ⟨by decide, by decide⟩, ⟨by decide, by decide⟩⟩
  · refine ⟨⟨by decide, ⟨by decide, by decide⟩, ⟨by decide, by decide⟩⟩, by simp, ?_⟩
    intro d hd
    simp only [List.mem_cons, List.not_mem_nil, or_false] at hd
    subst hd
    exact ⟨by decide, ⟨by decide, by decide⟩, ⟨by decide, by decide⟩⟩

theorem exampleAst_exact : ∀ v ∈ exampleAst, v.1.Exact ∧ ∀ d ∈ v.2, d.Exact := by
  have four : ∀ (n : Int) (q : ℚ), q = n / 10000 → FourDecimals q := fun n q h => ⟨n, h⟩
  intro v hv
  simp only [exampleAst, List.mem_cons, List.not_mem_nil, or_false] at hv
  rcases hv with rfl | rfl <;>
    simp only [CoreDsl.Dist.Exact, Option.getD, List.forall_mem_cons, List.not_mem_nil, IsEmpty.forall_iff,
      implies_true, and_true, true_and]
  · exact ⟨four 15000 _ (by norm_num), ⟨four (-17500) _ (by norm_num), four 10000 _ (by norm_num),
      four 20000 _ (by norm_num), four 2500 _ (by norm_num)⟩, four 30000 _ (by norm_num), four 5000 _ (by norm_num)⟩
  · exact ⟨four 10000 _ (by norm_num), four 10000 _ (by norm_num), four 12500 _ (by norm_num)⟩

example : ∃ l, parseCore (compileAst exampleAst) = .ok l ∧ l.length = 2 :=
  ⟨_, C116_parses (by simp [exampleAst]) exampleAst_writable exampleAst_exact, rfl⟩

theorem exampleAst_known : ∀ v ∈ exampleAst, ViewKnown v := by
  intro v hv
  simp only [exampleAst, List.mem_cons, List.not_mem_nil, or_false] at hv
  rcases hv with rfl | rfl
  · refine ⟨.inr (.inl rfl), ?_⟩
    intro d hd
    simp only [List.mem_cons, List.not_mem_nil, or_false] at hd
    rcases hd with rfl | rfl
    · exact .inr (.inr (.inl rfl))
    · exact .inl rfl
  · refine ⟨.inr (.inl rfl), ?_⟩
    intro d hd
    simp only [List.mem_cons, List.not_mem_nil, or_false] at hd
    subst hd
    exact .inr (.inr (.inr rfl))

theorem exampleAst_sound : SoundState (exampleAst.map sourceOf) := by
  have k3 : kOf [("k".toList, 3)] = some 3 := by decide +kernel
  refine ⟨by simp [exampleAst], ?_, by simp [exampleAst, SourceView.vars, sourceOf, dimOf]⟩
  intro v hv
  simp only [exampleAst, List.map_cons, List.map_nil, List.mem_cons, List.not_mem_nil, or_false] at hv
  rcases hv with rfl | rfl
  · refine ⟨⟨rfl, ⟨_, rfl⟩, ?_⟩, by simp [sourceOf], ?_, by simp [sourceOf, Dict.keys], by simp [sourceOf, Dict.keys]⟩
    · intro x hx
      simp [sourceOf, dimOf, Dict.get?] at hx
      rw [← hx]; norm_num
    · intro d hd
      simp only [sourceOf, List.map_cons, List.map_nil, List.mem_cons, List.not_mem_nil, or_false] at hd
      rcases hd with rfl | rfl
      · refine ⟨.inl rfl, ⟨_, rfl⟩, ?_⟩
        intro n x hx hn
        simp only [dimOf, List.map_cons, List.map_nil, Dict.get?] at hx
        split at hx
        · next e => exact absurd e.symm hn
        · split at hx
          · cases hx; norm_num
          · split at hx
            · cases hx; norm_num
            · split at hx
              · cases hx; norm_num
              · cases hx
      · refine ⟨.inr (.inr ⟨rfl, 3, k3, by norm_num⟩), ⟨_, rfl⟩, ?_⟩
        intro n x hx hn
        simp only [dimOf, List.map_cons, List.map_nil, Dict.get?] at hx
        split at hx
        · cases hx; norm_num
        · cases hx
  · refine ⟨⟨rfl, ⟨_, rfl⟩, ?_⟩, by simp [sourceOf], ?_, by simp [sourceOf, Dict.keys], by simp [sourceOf, Dict.keys]⟩
    · intro x hx
      simp [sourceOf, dimOf, Dict.get?] at hx
      rw [← hx]; norm_num
    · intro d hd
      simp only [sourceOf, List.map_cons, List.map_nil, List.mem_cons, List.not_mem_nil, or_false] at hd
      subst hd
      refine ⟨.inr (.inl rfl), ⟨_, rfl⟩, ?_⟩
      intro n x hx hn
      simp only [dimOf, List.map_cons, List.map_nil, Dict.get?] at hx
      split at hx
      · cases hx; norm_num
      · split at hx
        · cases hx; norm_num
        · cases hx

/-- The example is built. -/
example : ∃ x, interpretAst exampleAst = .ok x ∧ columns x = [0, 1, 2] := by
  obtain ⟨x, cs, h1, -, -, h2, -⟩ := C117_interprets exampleAst_writable exampleAst_known exampleAst_exact
    exampleAst_sound
  refine ⟨x, h1, ?_⟩
  unfold exampleAst at h2
  rcases hx : x.cgpms with _ | ⟨v, _ | ⟨w, _ | ⟨u, l⟩⟩⟩ <;> rw [hx] at h2
  · cases h2
  · simp at h2
  · simp only [List.map_cons, List.map_nil, List.forall₂_cons, List.Forall₂.nil, and_true] at h2
    obtain ⟨hv, hw⟩ := h2
    unfold columns viewColumns
    rw [hx]
    simp [hv.vars, hw.vars, SourceView.vars, sourceOf, dimOf]
  · simp at h2

end Cgpm2.Props
