import Verif.Lemmas.CoreRead
import Verif.Lemmas.Conversion

/-!
# Running the program made from an AST (helpers)
-/

namespace Cgpm2.CoreDsl
open Views Conversion Spec

/-! ## Numbers -/

/-- The dict with the numbers that are read back. -/
def roundDict (d : Dict Str ℚ) : Dict Str ℚ := d.map fun kv => (kv.1, rounded kv.2)

/-- The distribution with the numbers that are read back. -/
def roundDist (d : CoreDsl.Dist) : CoreDsl.Dist :=
  ⟨d.output, d.name, d.distargs.map roundDict, roundDict d.hypers⟩

theorem rounded_exact {v : ℚ} (h : FourDecimals v) : rounded v = v := by
  obtain ⟨n, rfl⟩ := h
  unfold rounded
  split
  · rfl
  · have : ((n : ℚ) / 10000) * 10000 = n := by field_simp
    rw [this, round_intCast]

theorem roundDict_exact {d : Dict Str ℚ} (h : ∀ kv ∈ d, FourDecimals kv.2) : roundDict d = d := by
  unfold roundDict
  conv_rhs => rw [← List.map_id d]
  refine List.map_congr_left fun kv hkv => ?_
  rw [rounded_exact (h kv hkv)]
  rfl

theorem roundDist_exact {d : CoreDsl.Dist} (h : d.Exact) : roundDist d = d := by
  obtain ⟨o, n, a, hy⟩ := d
  obtain ⟨h1, h2⟩ := h
  unfold roundDist
  dsimp only at h1 h2 ⊢
  rw [roundDict_exact h2]
  rcases a with _ | a
  · rfl
  · rw [Option.map_some, roundDict_exact (d := a) h1]

theorem yamlDict_eq (d : Dict Str ℚ) : yamlDict d = ofDict (roundDict d) := by
  unfold yamlDict ofDict roundDict
  by_cases h : d = []
  · simp [h]
  · simp [h]

theorem getD_round (a : Option (Dict Str ℚ)) : (a.map roundDict).getD [] = roundDict (a.getD []) := by
  cases a <;> rfl

theorem loaded_eq (d : CoreDsl.Dist) : loaded d = asParsed (roundDist d) := by
  unfold loaded asParsed roundDist
  dsimp only
  rw [yamlDict_eq, yamlDict_eq, getD_round]

/-! ## Calls -/

theorem isSome_ofDict (d : Dict Str ℚ) : (ofDict d).isSome = decide (d ≠ []) := by
  unfold ofDict
  by_cases h : d = []
  · simp [h, Yaml.isSome]
  · simp [h, Yaml.isSome]

theorem numbers_ofDict {d : Dict Str ℚ} (h : d ≠ []) : (ofDict d).numbers = .ok d := by
  rw [ofDict, if_neg h, Yaml.numbers]
  clear h
  induction d with
  | nil => rfl
  | cons p d ih =>
    rw [List.map_cons, List.mapM_cons]
    dsimp only
    rw [ih]
    rfl

/-- The keyword arguments written for two dicts. -/
def kwargsOf (a h : Dict Str ℚ) : Dict Str Yaml :=
  [("distargs".toList, ofDict a), ("hypers".toList, ofDict h)].filter fun kv => kv.2.isSome

theorem kwarg_distargs (a h : Dict Str ℚ) : kwarg (kwargsOf a h) "distargs".toList = .ok a := by
  unfold kwargsOf kwarg
  rw [List.filter_cons]
  dsimp only
  by_cases ha : a = []
  · subst ha
    rw [if_neg (by simp [isSome_ofDict]), List.filter_cons]
    dsimp only
    have : Dict.get? (if (ofDict h).isSome = true then ("hypers".toList, ofDict h) ::
        List.filter (fun kv => kv.2.isSome) [] else List.filter (fun kv => kv.2.isSome) [])
        "distargs".toList = none := by
      by_cases hh : (ofDict h).isSome = true
      · rw [if_pos hh, Dict.get?, if_neg (by decide)]
        rfl
      · rw [if_neg hh]
        rfl
    rw [this]
  · rw [if_pos (by simp [isSome_ofDict, ha]), Dict.get?, if_pos rfl]
    exact numbers_ofDict ha

theorem kwarg_hypers (a h : Dict Str ℚ) : kwarg (kwargsOf a h) "hypers".toList = .ok h := by
  have key : kwarg ([("hypers".toList, ofDict h)].filter fun kv => kv.2.isSome) "hypers".toList = .ok h := by
    unfold kwarg
    rw [List.filter_cons]
    dsimp only
    by_cases hh : h = []
    · subst hh
      rw [if_neg (by simp [isSome_ofDict])]
      rfl
    · rw [if_pos (by simp [isSome_ofDict, hh]), Dict.get?, if_pos rfl]
      exact numbers_ofDict hh
  unfold kwargsOf
  rw [List.filter_cons]
  dsimp only
  split
  · rw [kwarg, Dict.get?, if_neg (by decide)]
    exact key
  · exact key

theorem constructor_known {name : Str} (h : Known name) :
    ∃ c, Dict.getItem primitiveConstructors name = .ok c ∧ classOf c = name := by
  rcases h with rfl | rfl | rfl | rfl
  · exact ⟨"Categorical".toList, by decide, by decide⟩
  · exact ⟨"CRP".toList, by decide, by decide⟩
  · exact ⟨"Normal".toList, by decide, by decide⟩
  · exact ⟨"Poisson".toList, by decide, by decide⟩

theorem compilePrimitive_yaml {d : CoreDsl.Dist} (h : d.Writable) (hk : Known d.name) :
    ∃ c, compilePrimitive (distYaml d) = .ok c ∧ c.dim = .ok (dimOf (roundDist d)) := by
  obtain ⟨con, hc, hcl⟩ := constructor_known hk
  refine ⟨⟨con, d.output, kwargsOf (roundDict (d.distargs.getD [])) (roundDict d.hypers)⟩, ?_, ?_⟩
  · rw [distYaml, compilePrimitive, h.name.parse]
    change (do
      let constructor ← Dict.getItem primitiveConstructors d.name
      match bodyYaml d with
      | .map kwargs => pure ⟨constructor, d.output, kwargs.filter fun kv => kv.2.isSome⟩
      | _ => throw .attributeError : Except Err Call) = _
    rw [hc, bodyYaml, yamlDict_eq, yamlDict_eq]
    rfl
  · rw [Call.dim]
    dsimp only
    rw [kwarg_distargs, kwarg_hypers, hcl]
    unfold dimOf roundDist
    dsimp only
    rw [getD_round]
    rfl

theorem compile_calls {ds : List CoreDsl.Dist} (h : ∀ d ∈ ds, d.Writable ∧ Known d.name) :
    ∃ cs, (ds.map distYaml).mapM compilePrimitive = .ok cs ∧
      cs.mapM execCall = (ds.map fun d => dimOf (roundDist d)).mapM convertDim := by
  induction ds with
  | nil => exact ⟨[], rfl, rfl⟩
  | cons d ds ih =>
    obtain ⟨c, h1, h2⟩ := compilePrimitive_yaml (h d (by simp)).1 (h d (by simp)).2
    obtain ⟨cs, h3, h4⟩ := ih fun e he => h e (by simp [he])
    refine ⟨c :: cs, ?_, ?_⟩
    · rw [List.map_cons, List.mapM_cons, h1, h3]
      rfl
    · rw [List.mapM_cons, h4, List.map_cons, List.mapM_cons, execCall, h2]
      rfl

/-- The source of the view with the numbers that are read back. -/
noncomputable def roundSource (v : CoreDsl.Dist × List CoreDsl.Dist) : SourceView :=
  ⟨v.2.map fun d => dimOf (roundDist d), dimOf (roundDist v.1), [], []⟩

theorem compileRowMixture_yaml {v : CoreDsl.Dist × List CoreDsl.Dist} (h : ViewWritable v) (hk : ViewKnown v) :
    ∃ c, compileRowMixture (viewBody v) = .ok c ∧
      execCall c.1 = convertDim (roundSource v).crp ∧
      c.2.mapM execCall = (roundSource v).dims.mapM convertDim := by
  obtain ⟨c, h1, h2⟩ := compilePrimitive_yaml h.divide hk.divide
  obtain ⟨cs, h3, h4⟩ := compile_calls fun d hd => ⟨h.dists d hd, hk.dists d hd⟩
  refine ⟨(c, cs), ?_, ?_, h4⟩
  · rw [compileRowMixture, viewBody, getItem_first, getItem_second (by decide)]
    change (do
      let divide ← compilePrimitive (distYaml v.1)
      let calls ← (v.2.map distYaml).mapM compilePrimitive
      pure (divide, calls) : Except Err _) = _
    rw [h1, h3]
    rfl
  · rw [execCall, h2]
    rfl

theorem compileEmbedded_compile {ast : Ast} (hne : ast ≠ []) (h : ∀ v ∈ ast, ViewWritable v)
    (hk : ∀ v ∈ ast, ViewKnown v) :
    ∃ p, compileEmbedded (compileAst ast) = .ok p ∧
      List.Forall₂ (fun v c => execCall c.1 = convertDim (roundSource v).crp ∧
        c.2.mapM execCall = (roundSource v).dims.mapM convertDim) ast p := by
  rw [compileEmbedded, yamlLoad_compile hne h]
  clear hne
  induction ast with
  | nil => exact ⟨[], rfl, .nil⟩
  | cons v ast ih =>
    obtain ⟨p, h1, h2⟩ := ih (fun w hw => h w (by simp [hw])) fun w hw => hk w (by simp [hw])
    obtain ⟨c, h3, h4⟩ := compileRowMixture_yaml (h v (by simp)) (hk v (by simp))
    refine ⟨c :: p, ?_, .cons h4 h2⟩
    have h1 : List.mapM (fun view => do
        let v ← view.getItem "view".toList
        compileRowMixture v) (ast.map viewYaml) = .ok p := h1
    change List.mapM (fun view => do
        let v ← view.getItem "view".toList
        compileRowMixture v) (viewYaml v :: ast.map viewYaml) = _
    rw [List.mapM_cons, h1]
    have : (viewYaml v).getItem "view".toList = .ok (viewBody v) := by
      simp [viewYaml, Yaml.getItem, Dict.getItem, Dict.get?]
    rw [this]
    change (do
      let a ← compileRowMixture (viewBody v)
      let l ← _
      pure (a :: l) : Except Err _) = _
    rw [h3]
    rfl

/-! ## Views -/

theorem get?_ofList {d : Dict Str ℚ} (n : Str) :
    Dict.get? (d.map fun kv => (String.ofList kv.1, (kv.2 : ℝ))) (String.ofList n) =
      (Dict.get? d n).map fun q : ℚ => (q : ℝ) := by
  induction d with
  | nil => rfl
  | cons p d ih =>
    obtain ⟨k, v⟩ := p
    rw [List.map_cons, Dict.get?, Dict.get?, ih]
    by_cases h : k = n
    · rw [if_pos h, if_pos (by rw [h])]
      rfl
    · rw [if_neg h, if_neg (fun e => h (String.ofList_injective e))]

theorem get?_names {names : List String} {f : String → ℝ} {n : String}
    (h : n ∈ Dict.keys (names.map fun n => (n, f n))) :
    Dict.get? (names.map fun n => (n, f n)) n = some (f n) := by
  induction names with
  | nil => simp [Dict.keys] at h
  | cons a l ih =>
    rw [List.map_cons, Dict.get?]
    by_cases e : a = n
    · rw [if_pos e, e]
    · rw [if_neg e]
      refine ih ?_
      simp only [Dict.keys, List.map_cons, List.mem_cons] at h
      rcases h with h | h
      · exact absurd h.symm e
      · exact h

theorem ofDim_gives {d : CoreDsl.Dist} {p : Prim} (h : OfDim (dimOf d) p)
    (hb : p.kind ≠ .bernoulli) : GivesBack d (convertPrimitive p) := by
  obtain ⟨h1, h2, h3⟩ := h
  have hh : ∀ n x, Dict.get? d.hypers n = some x → String.ofList n ∈ Dict.keys p.getHypers →
      Dict.get? p.getHypers (String.ofList n) = some (x : ℝ) := by
    intro n x hx hn
    rw [h3] at hn ⊢
    rw [get?_names hn, Dim.hyper, dimOf]
    dsimp only
    rw [get?_ofList, hx]
    rfl
  have hk : Dict.keys p.getHypers = hyperNames p.kind := by
    rw [h3]
    simp [Dict.keys, Function.comp_def]
  refine ⟨?_, ?_, ?_, hh, ?_⟩
  · change p.outputs.headD 0 = _
    rw [h1]
    rfl
  · cases p <;> simp only [OfType, Dim.type, dimOf] at h2 <;> first
      | exact h2.1.symm
      | exact h2.symm
  · cases p <;> simp only [OfType, Dim.type, dimOf] at h2 <;>
      simp [convertPrimitive, className, distargsK]
    exact h2.2.symm
  · change Dict.keys p.getHypers = _
    rw [hk]
    cases p <;> simp [convertPrimitive, className, hyperNames, Prim.kind]
    · exact hb rfl
    · simp [OfType] at h2

theorem mapM_ok_cons {α β : Type} {f : α → Except Err β} {a : α} {b : β} {l : List α} {bs : List β}
    (h : f a = .ok b) (h' : l.mapM f = .ok bs) : (a :: l).mapM f = .ok (b :: bs) := by
  rw [List.mapM_cons, h, h']
  rfl

/-- The view made for a source without rows. -/
theorem fresh_view {s : SourceView} (h : SoundView s) (hn : (SourceView.vars s).Nodup) (hZ : s.Zr = [])
    (unique : List Int → List Int) (g : Rng) :
    ∃ (z : Var) (ps : List Prim), s.dims.mapM convertDim = .ok ps ∧
      convertDim s.crp = .ok (.crp (Crp.init [z] [] s.crp.hypers [])) ∧
      OfDim s.crp (.crp (Crp.init [z] [] s.crp.hypers [])) ∧
      List.Forall₂ (fun d p => OfDim d p ∧ DataDim d) s.dims ps ∧ Product.init primI ps = .ok ⟨ps⟩ ∧
      Conversion.convertView unique s g = (.ok (.flexMix (freshMix z s.crp.hypers ps) : Node (Node Prim)), g) := by
  obtain ⟨z, hzo⟩ := h.rowsDim.one
  obtain ⟨ps, hps, hF⟩ := dims_ok s.dims h.dims
  have hpr := fun p => forall₂_right (b := p) hF
  have houts := outputs_dims hF fun d p h => h.2.2.2.2.1.1
  obtain ⟨hd1, hd2, hd3, hd4⟩ := rowsDim_ok h.rowsDim hzo
  have hne : ps ≠ [] := by
    rintro rfl
    exact h.some (List.forall₂_nil_right_iff.1 hF)
  have hnd : (ps.flatMap Prim.outputs).Nodup := by rw [houts]; exact (List.nodup_append.1 hn).2.1
  have hoz : ∀ v ∈ ps.flatMap Prim.outputs, v ∉ [z] := by
    rw [houts]
    intro v hv hz
    rw [List.mem_singleton] at hz
    exact (List.nodup_append.1 hn).2.2 z (by rw [hzo]; simp) v hv hz.symm
  obtain ⟨-, -, hinit⟩ := freshMix_tidy (Z := [z]) (hy := s.crp.hypers) (by simp) hne hd2
    (fun p hp => by obtain ⟨d, -, h1, h2, h3, h4, -⟩ := hpr p hp; exact ⟨h1, h2, h3, h4⟩) hnd hoz
  refine ⟨z, ps, hps, hd1, hd3, ?_, hinit, ?_⟩
  · have hall := h.dims
    clear hps hpr houts hne hnd hoz hinit
    generalize s.dims = dims at hF hall
    induction hF with
    | nil => exact .nil
    | cons h _ ih =>
      exact .cons ⟨h.2.2.2.2.1, hall _ (by simp)⟩ (ih fun d hd => hall d (by simp [hd]))
  · unfold Conversion.convertView
    rw [hps, hZ]
    have hfm : FlexMix.init (.crp (Crp.init [z] [] s.crp.hypers [])) (.product ⟨ps⟩ : Node Prim) =
        .ok (freshMix z s.crp.hypers ps) := rfl
    have hr1 : rebaseRowAssignments (unique (Dict.values ([] : Dict RowId Int))) [] = .ok [] := rfl
    simp only [bind, Except.bind, hinit, hd1, hfm, hr1, pure, Except.pure]
    rfl

/-! ## The whole program -/

theorem roundSource_vars (v : CoreDsl.Dist × List CoreDsl.Dist) :
    SourceView.vars (roundSource v) = v.1.output :: v.2.map CoreDsl.Dist.output := by
  simp only [SourceView.vars, roundSource, dimOf, roundDist, List.flatMap_map, List.singleton_append,
    List.cons.injEq, true_and]
  induction v.2 with
  | nil => rfl
  | cons d l ih => simp [ih]

/-- What is given back for a view. -/
def ViewGives (v : CoreDsl.Dist × List CoreDsl.Dist) (c : Converted × List Converted) : Prop :=
  GivesBack (roundDist v.1) c.1 ∧ List.Forall₂ (fun d c => GivesBack (roundDist d) c) v.2 c.2

theorem exec_views {ast : Ast} {p : Program}
    (h : ∀ v ∈ ast, SoundView (roundSource v)) (hn : ∀ v ∈ ast, (SourceView.vars (roundSource v)).Nodup)
    (hp : List.Forall₂ (fun v c => execCall c.1 = convertDim (roundSource v).crp ∧
        c.2.mapM execCall = (roundSource v).dims.mapM convertDim) ast p)
    (unique : List Int → List Int) (g : Rng) :
    ∃ ws cs, p.mapM execView = .ok ws ∧
      Py.mapL (Conversion.convertView unique) (ast.map roundSource) g = (.ok ws, g) ∧
      ws.mapM CoreDsl.convertView = .ok cs ∧ List.Forall₂ ViewGives ast cs := by
  induction hp with
  | nil => exact ⟨[], [], rfl, rfl, rfl, .nil⟩
  | @cons v c ast p h1 hp ih =>
    obtain ⟨ws, cs, h2, h3, h4, h5⟩ := ih (fun u hu => h u (by simp [hu])) fun u hu => hn u (by simp [hu])
    obtain ⟨z, ps, k1, k2, k3, k4, k5, k6⟩ := fresh_view (h v (by simp)) (hn v (by simp)) rfl unique g
    have hw : execView c = .ok (.flexMix (freshMix z (roundSource v).crp.hypers ps) : Node (Node Prim)) := by
      unfold execView
      rw [h1.1, h1.2, k1, k2]
      change (do
        let base ← Product.init primI ps
        let m ← FlexMix.init (.crp (Crp.init [z] [] (roundSource v).crp.hypers [])) (.product base : Node Prim)
        pure (.flexMix m : Node (Node Prim)) : Except Err View) = _
      rw [k5]
      rfl
    refine ⟨_ :: ws, (convertPrimitive (.crp (Crp.init [z] [] (roundSource v).crp.hypers [])),
      ps.map convertPrimitive) :: cs, ?_, mapL_cons k6 h3, ?_, .cons ⟨ofDim_gives k3 nofun, ?_⟩ h5⟩
    · exact mapM_ok_cons hw h2
    · exact mapM_ok_cons rfl h4
    · have k4' : List.Forall₂ (fun d p => OfDim d p ∧ DataDim d) (v.2.map fun d => dimOf (roundDist d)) ps := k4
      rw [List.forall₂_map_left_iff] at k4'
      rw [List.forall₂_map_right_iff]
      refine k4'.imp fun d p hdp => ofDim_gives hdp.1 ?_
      intro hb
      have ht := hdp.1.2.1
      cases p <;> simp only [Prim.kind, reduceCtorEq] at hb
      have ht : (dimOf (roundDist d)).cctype = "bernoulli" := ht
      rcases hdp.2.type with e | e | ⟨e, -⟩ <;> rw [ht] at e <;> exact absurd e (by decide)

/-- Some random numbers; none are used. -/
def g0 : Rng := fun _ => ⟨0, 0⟩

theorem interpret_ok {ast : Ast} (h : ∀ v ∈ ast, ViewWritable v) (hk : ∀ v ∈ ast, ViewKnown v)
    (hs : SoundState (ast.map roundSource)) :
    ∃ x cs, interpretAst ast = .ok x ∧ IsCrosscat x ∧ (∃ Z, Tidy Z 3 (whole x) ∧ ∀ v ∈ columns x, v ∉ Z) ∧
      List.Forall₂ Says (ast.map roundSource) x.cgpms ∧
      convertCrosscat x = .ok cs ∧ List.Forall₂ ViewGives ast cs := by
  have hne : ast ≠ [] := by
    rintro rfl
    exact hs.some rfl
  obtain ⟨p, h1, h2⟩ := compileEmbedded_compile hne h hk
  obtain ⟨ws, cs, h3, h4, h5, h6⟩ := exec_views (fun v hv => hs.views _ (List.mem_map.2 ⟨v, hv, rfl⟩))
    (fun v hv => by
      have := hs.apart
      obtain ⟨l1, l2, e⟩ := List.append_of_mem (List.mem_map.2 ⟨v, hv, rfl⟩ : roundSource v ∈ ast.map roundSource)
      rw [e, List.flatMap_append, List.flatMap_cons, List.nodup_append] at this
      exact (List.nodup_append.1 this.2.1).1) h2 List.dedup g0
  obtain ⟨x, k1, k2, k3, k4, k5, -⟩ := conversion_ok (unique := List.dedup)
    (fun l => ⟨List.nodup_dedup l, fun t => List.mem_dedup⟩) hs g0
  unfold convertState at k1
  rw [Py.bind_apply, h4] at k1
  have k1 : Product.init (cgpmI 2) ws = .ok x := (Prod.ext_iff.1 k1).1
  obtain ⟨rfl, -⟩ := init_ok k1
  refine ⟨⟨ws⟩, cs, ?_, k2, ⟨_, k3, k4⟩, k5, h5, h6⟩
  unfold interpretAst
  rw [h1]
  change (do
    let views ← p.mapM execView
    Product.init (cgpmI 2) views : Except Err Crosscat) = _
  rw [h3]
  exact k1

end Cgpm2.CoreDsl
