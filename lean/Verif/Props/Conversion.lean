import Verif.Lemmas.Conversion

/-!
# Properties C111, C112: converting a state of cgpm to a CrossCat and to a tree
-/

namespace Cgpm2.Props
open Spec Views Ensemble Conversion

/-- C111: `convert_cgpm_state_to_cgpm2` turns a sound state of cgpm into a CrossCat that says the same:
view by view the same variables, cells, clusters of rows and hyperparameters.  The cluster numbers may be
any integers, and Python may enumerate the set of them in any order.  No randomness is used, and the
result is a model of the kind the other properties are about. -/
theorem C111_converts {unique : List Int → List Int} (hu : ∀ l, (unique l).Nodup ∧ ∀ t, t ∈ unique l ↔ t ∈ l)
    {s : List SourceView} (h : SoundState s) (g : Rng) :
    ∃ x, convertState unique s g = (.ok x, g) ∧ IsCrosscat x ∧ (∃ Z, Tidy Z 3 (whole x) ∧ ∀ v ∈ columns x, v ∉ Z) ∧
      List.Forall₂ Says s x.cgpms := by
  obtain ⟨x, h1, h2, h3, h4, h5, -⟩ := conversion_ok hu h g
  exact ⟨x, h1, h2, ⟨_, h3, h4⟩, h5⟩

/-- C111: a state with a Bernoulli dimension is never converted, although Bernoulli is one of the
primitives: the table of classes has no entry for it, and the conversion raises KeyError. -/
theorem C111_bernoulli_violated (unique : List Int → List Int) {v : SourceView} (s : List SourceView)
    {before after : List Dim} {d : Dim} (hv : v.dims = before ++ d :: after) (hb : ∀ d ∈ before, DataDim d)
    (hd : d.cctype = "bernoulli") (g : Rng) : convertState unique (v :: s) g = (.error .keyError, g) := by
  have h1 : convertDim d = .error .keyError := by simp [convertDim, hd]
  have h2 : v.dims.mapM convertDim = .error .keyError := by
    obtain ⟨ps, hps, -⟩ := dims_ok before hb
    rw [hv, List.mapM_append, hps]
    change (List.mapM convertDim (d :: after) >>= _) = _
    rw [List.mapM_cons, h1]; rfl
  have h3 : convertView unique v g = (.error .keyError, g) := by
    unfold convertView
    rw [h2]; rfl
  unfold convertState
  rw [Py.bind_apply, Py.mapL, Py.bind_apply, h3]

/-- C112: `convert_cgpm_to_ast` applied to a CrossCat that was converted from a sound state gives the tree
of that state: view by view the clustering and the list of columns, each with its class, its number of
categories, and all its hyperparameters, those left out with their defaults. -/
theorem C112_ast {unique : List Int → List Int} (hu : ∀ l, (unique l).Nodup ∧ ∀ t, t ∈ unique l ↔ t ∈ l)
    {s : List SourceView} (h : SoundState s) (g : Rng) :
    ∃ x, convertState unique s g = (.ok x, g) ∧ convertToAst 3 (whole x) = .ok (stateAst s) := by
  obtain ⟨x, h1, -, -, -, -, h2⟩ := conversion_ok hu h g
  exact ⟨x, h1, h2⟩

/-! ## A state -/

/-- Two views: a normal and a categorical column with three rows in clusters 7, 3, 7, and a Poisson
column with the same rows, all in cluster 0. -/
noncomputable def exampleState : List SourceView :=
  [⟨[⟨"normal", [1], [("m", 2)], none⟩, ⟨"categorical", [2], [], some 3⟩], ⟨"crp", [10], [("alpha", 2)], none⟩,
    [(some 0, 7), (some 1, 3), (some 2, 7)],
    [(1, [(some 0, .num (1 / 2)), (some 1, .num 3), (some 2, .nan)]),
      (2, [(some 0, .num 0), (some 1, .num 2), (some 2, .num 1)])]⟩,
    ⟨[⟨"poisson", [3], [], none⟩], ⟨"crp", [11], [], none⟩, [(some 0, 0), (some 1, 0), (some 2, 0)],
      [(3, [(some 0, .num 4), (some 1, .num 0), (some 2, .num 1)])]⟩]

theorem exampleState_sound : SoundState exampleState := by
  refine ⟨by simp [exampleState], ?_, by simp [exampleState, SourceView.vars]⟩
  intro v hv
  simp only [exampleState, List.mem_cons, List.not_mem_nil, or_false] at hv
  rcases hv with rfl | rfl
  · refine ⟨⟨rfl, ⟨_, rfl⟩, ?_⟩, by simp, ?_, by decide, ?_⟩
    · intro x hx
      simp [Dict.get?] at hx
      rw [← hx]; norm_num
    · intro d hd
      simp only [List.mem_cons, List.not_mem_nil, or_false] at hd
      rcases hd with rfl | rfl
      · refine ⟨.inl rfl, ⟨_, rfl⟩, ?_⟩
        intro n x hx hn
        simp [Dict.get?, Ne.symm hn] at hx
      · exact ⟨.inr (.inr ⟨rfl, 3, rfl, by norm_num⟩), ⟨_, rfl⟩, by simp [Dict.get?]⟩
    · intro r hr d hd c hc
      simp only [Dict.keys, List.map_cons, List.map_nil, List.mem_cons, List.not_mem_nil, or_false] at hr
      simp only [List.mem_cons, List.not_mem_nil, or_false] at hd
      rcases hd with rfl | rfl <;> simp only [List.mem_cons, List.not_mem_nil, or_false] at hc <;> subst hc <;>
        rcases hr with rfl | rfl | rfl <;>
        simp [SourceView.cell, Dict.get?, ValueOf, Dim.type]
      exacts [⟨0, by norm_num, by norm_num⟩, ⟨2, by norm_num, by norm_num⟩, ⟨1, by norm_num, by norm_num⟩]
  · refine ⟨⟨rfl, ⟨_, rfl⟩, by simp [Dict.get?]⟩, by simp, ?_, by decide, ?_⟩
    · intro d hd
      simp only [List.mem_cons, List.not_mem_nil, or_false] at hd
      subst hd
      exact ⟨.inr (.inl rfl), ⟨_, rfl⟩, by simp [Dict.get?]⟩
    · intro r hr d hd c hc
      simp only [Dict.keys, List.map_cons, List.map_nil, List.mem_cons, List.not_mem_nil, or_false] at hr
      simp only [List.mem_cons, List.not_mem_nil, or_false] at hd
      subst hd
      simp only [List.mem_cons, List.not_mem_nil, or_false] at hc
      subst hc
      rcases hr with rfl | rfl | rfl <;> simp [SourceView.cell, Dict.get?, ValueOf, Dim.type]
      exacts [⟨4, by norm_num⟩, ⟨0, by norm_num⟩, ⟨1, by norm_num⟩]

/-- The two first rows are apart and the first and the last together, whatever the numbers. -/
example (g : Rng) : ∃ x v w, convertState List.dedup exampleState g = (.ok x, g) ∧ x.cgpms = [v, w] ∧
    Mates v (some 0) (some 2) ∧ ¬ Mates v (some 0) (some 1) ∧ Mates w (some 0) (some 1) ∧
    heldCell (cgpmI 2) v g (some 1) 2 = some (.num 2) := by
  obtain ⟨x, h1, -, -, h2⟩ := C111_converts (unique := List.dedup)
    (fun l => ⟨List.nodup_dedup l, fun t => List.mem_dedup⟩) exampleState_sound g
  unfold exampleState at h2
  rcases hx : x.cgpms with _ | ⟨v, _ | ⟨w, _ | ⟨u, l⟩⟩⟩ <;> rw [hx] at h2
  · cases h2
  · simp at h2
  · simp only [List.forall₂_cons, List.Forall₂.nil, and_true] at h2
    obtain ⟨hv, hw⟩ := h2
    refine ⟨x, v, w, h1, hx, (hv.together _ _).2 ⟨7, rfl, rfl⟩, ?_, (hw.together _ _).2 ⟨0, rfl, rfl⟩, ?_⟩
    · rw [hv.together]
      rintro ⟨t, h, h'⟩
      simp [Dict.get?] at h h'
      omega
    · rw [hv.cells g (some 1) 2 (by unfold viewColumns; rw [hv.vars]; simp [SourceView.vars])]
      rfl
  · simp at h2

example (unique : List Int → List Int) (g : Rng) :
    convertState unique [⟨[⟨"bernoulli", [1], [], none⟩], ⟨"crp", [10], [], none⟩, [], []⟩] g = (.error .keyError, g) :=
  C111_bernoulli_violated unique [] (before := []) rfl nofun rfl g

end Cgpm2.Props
