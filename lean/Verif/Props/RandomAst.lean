import Verif.Lemmas.RandomAst

/-!
# C119: random CrossCat programs
-/

namespace Cgpm2.Props
open CoreDsl Spec Views Conversion

/-- C119: `generate_random_ast` of a schema of known distributions returns an AST of that schema, and
the iterator of outputs advances by the number of views. -/
theorem C119_generates (gamma : Draw → ℝ) (schema : List Column) (hk : ∀ column ∈ schema, Known column.distname)
    (g : Rng) (c : Int) (hc : c + schema.length ≤ 1000000) (hg : 0 < gamma (g 0)) :
    ∃ ast g', generateAst gamma schema (g, c) = (.ok ast, (g', c + ast.length)) ∧
      Generated gamma schema g c ast := by
  obtain ⟨ast, ⟨g', c'⟩, h1, h2, h3⟩ := generate_ok gamma hk g hc hg
  have h2 : c' = _ := h2
  exact ⟨ast, g', by rw [h1, h2], h3⟩

/-- C119: if the schema has normal, Poisson and categorical columns only, fewer than the first row
divider, and no gamma variate is close to zero, the CrossCat of the AST is built.  It has the columns
of the schema, in the views of the AST, and its variables are distinct. -/
theorem C119_builds (gamma : Draw → ℝ) (schema : List Column) (hne : schema ≠ [])
    (hp : ∀ column ∈ schema, column.Plain) (g : Rng) (c : Int) (hlo : schema.length ≤ c)
    (hc : c + schema.length ≤ 1000000) (hg : ∀ k ≤ 6 * schema.length, 51 / 500000 ≤ gamma (g k)) :
    ∃ ast s x, generateAst gamma schema (g, c) = (.ok ast, s) ∧ Generated gamma schema g c ast ∧
      interpretAst ast = .ok x ∧ IsCrosscat x ∧ (∃ Z, Tidy Z 3 (whole x) ∧ ∀ v ∈ columns x, v ∉ Z) ∧
      List.Forall₂ (fun v w => (cgpmI 2).outputs w = v.1.output :: viewColumns w ∧
        viewColumns w = v.2.map Dist.output) ast x.cgpms ∧
      (columns x).Perm ((List.range schema.length).map fun b : Nat => (b : Int)) := by
  obtain ⟨ast, s, h1, -, h2⟩ := generate_ok gamma (fun column hcol => plain_known (hp column hcol)) g hc
    (lt_of_lt_of_le (by norm_num) (hg 0 (Nat.zero_le _)))
  obtain ⟨hw, hk, hs⟩ := generated_sound h2 hne hp hlo hg
  obtain ⟨x, cs, h3, h4, h5, h6, -⟩ := interpret_ok hw hk hs
  have h7 : List.Forall₂ (fun v w => (cgpmI 2).outputs w = v.1.output :: viewColumns w ∧
        viewColumns w = v.2.map Dist.output) ast x.cgpms := by
    rw [List.forall₂_map_left_iff] at h6
    refine h6.imp fun v w hvw => ?_
    have e : (cgpmI 2).outputs w = v.1.output :: v.2.map Dist.output := by
      rw [hvw.vars]
      change [v.1.output] ++ (v.2.map fun d => dimOf (roundDist d)).flatMap (fun d => d.outputs) = _
      rw [List.flatMap_map]
      change v.1.output :: v.2.flatMap (fun d => [d.output]) = _
      rw [List.map_eq_flatMap]
    have e' : viewColumns w = v.2.map Dist.output := by
      unfold viewColumns
      rw [e]
      rfl
    exact ⟨by rw [e', e], e'⟩
  refine ⟨ast, s, x, h1, h2, h3, h4, h5, h7, ?_⟩
  have : columns x = ast.flatMap fun v => v.2.map Dist.output := by
    unfold columns
    clear h1 h2 h3 h4 h5 h6 hw hk hs
    generalize x.cgpms = l at h7
    induction h7 with
    | nil => rfl
    | cons h _ ih => rw [List.flatMap_cons, List.flatMap_cons, ih, h.2]
  rw [this]
  exact h2.covers

/-- The schema at the end of src/sample_crosscat.py, and a constant gamma variate. -/
def exampleSchema : List Column :=
  [⟨"perigee_km", "normal".toList, none⟩, ⟨"apogee_km", "normal".toList, none⟩,
    ⟨"failures", "poisson".toList, none⟩, ⟨"class_of_orbit", "categorical".toList, some [("k".toList, (3 : Nat))]⟩,
    ⟨"type_of_orbit", "categorical".toList, some [("k".toList, (10 : Nat))]⟩]

theorem exampleSchema_plain : ∀ column ∈ exampleSchema, column.Plain := by
  intro column h
  simp only [exampleSchema, List.mem_cons, List.not_mem_nil, or_false] at h
  rcases h with rfl | rfl | rfl | rfl | rfl
  · exact .inl ⟨.inl rfl, rfl⟩
  · exact .inl ⟨.inl rfl, rfl⟩
  · exact .inl ⟨.inr rfl, rfl⟩
  · exact .inr ⟨rfl, 3, by norm_num, rfl⟩
  · exact .inr ⟨rfl, 10, by norm_num, rfl⟩

example (g : Rng) : ∃ ast s x, generateAst (fun _ => 1) exampleSchema (g, 100000) = (.ok ast, s) ∧
    interpretAst ast = .ok x ∧ (columns x).length = 5 := by
  obtain ⟨ast, s, x, h1, -, h2, -, -, -, h3⟩ := C119_builds (fun _ => 1) exampleSchema (by simp [exampleSchema])
    exampleSchema_plain g 100000 (by decide) (by decide) (fun _ _ => by norm_num)
  exact ⟨ast, s, x, h1, h2, by rw [h3.length_eq]; rfl⟩

/-- C119 without the bound on the number of columns: with more than a hundred thousand columns, the
first row divider of a process has the number of a column. -/
theorem C119_clash_violated (gamma : Draw → ℝ) (schema : List Column) (hk : ∀ column ∈ schema, Known column.distname)
    (g : Rng) (hlo : 100000 < schema.length) (hc : schema.length ≤ 900000) (hg : 0 < gamma (g 0)) :
    ∃ ast s, generateAst gamma schema (g, 100000) = (.ok ast, s) ∧
      ∃ v ∈ ast, ∃ w ∈ ast, ∃ d ∈ w.2, v.1.output = d.output := by
  obtain ⟨ast, s, h1, -, h2⟩ := generate_ok gamma hk g (c := 100000) (by omega) hg
  refine ⟨ast, s, h1, ?_⟩
  have hmem : (100000 : Int) ∈ ast.flatMap fun v => v.2.map Dist.output := by
    rw [h2.covers.mem_iff]
    exact List.mem_map.2 ⟨100000, List.mem_range.2 hlo, rfl⟩
  obtain ⟨w, hw, hd⟩ := List.mem_flatMap.1 hmem
  obtain ⟨d, hd, e⟩ := List.mem_map.1 hd
  have hpos : 0 < ast.length := List.length_pos_iff.2 (List.ne_nil_of_mem hw)
  have h3 := congrArg (fun l => l[0]?) h2.dividers
  simp only [List.getElem?_map, List.getElem?_range hpos, List.getElem?_eq_getElem hpos, Option.map_some,
    Option.some.injEq] at h3
  exact ⟨ast[0], List.getElem_mem hpos, w, hw, d, hd, by rw [h3, e]; rfl⟩

/-- C119 in a process that has used up the iterator: after nine hundred thousand views, every schema
raises StopIteration. -/
theorem C119_exhausted_violated (gamma : Draw → ℝ) (schema : List Column) (hne : schema ≠ []) (g : Rng)
    (hg : 0 < gamma (g 0)) : (generateAst gamma schema (g, 1000000)).1 = .error .stopIteration := by
  obtain ⟨q, hq, h⟩ := generate_spec hg schema.length fun k => g (k + 1)
  obtain ⟨b, q, rfl⟩ := List.exists_cons_of_ne_nil (l := q) (by
    rintro rfl
    have := hq.sum_length
    simp only [List.map_nil, List.sum_nil] at this
    exact hne (List.length_eq_zero_iff.1 this.symm))
  unfold generateAst
  have e0 : drawGamma gamma (g, 1000000) = (.ok (gamma (g 0)), ((fun k => g (k + 1)), 1000000)) := rfl
  have e2 : drawPartition (gamma (g 0)) schema.length ((fun k => g (k + 1)), 1000000) =
      (.ok (b :: q), ((fun k => g (k + schema.length + 1)), 1000000)) := by
    unfold drawPartition
    dsimp only
    rw [h]
  have e3 (G : Rng) : generateRowDividers gamma (b :: q) (G, 1000000) = (.error .stopIteration, (G, 1000000)) := rfl
  rw [Py.bind_apply, e0]
  dsimp only
  rw [Py.bind_apply, e2]
  dsimp only
  rw [Py.bind_apply, e3]

/-- C119 with any other distribution, such as Bernoulli: AssertionError. -/
theorem C119_unknown_violated (gamma : Draw → ℝ) (schema : List Column) (hk : ∃ column ∈ schema, ¬ Known column.distname)
    (g : Rng) (c : Int) (hc : c + schema.length ≤ 1000000) (hg : 0 < gamma (g 0)) :
    (generateAst gamma schema (g, c)).1 = .error .assertionError := by
  obtain ⟨q, hq, h⟩ := generate_spec hg schema.length fun k => g (k + 1)
  have hql : q.length ≤ schema.length := partition_length hq
  obtain ⟨ds, d1, -⟩ := dividers_ok gamma g q (1 + schema.length) c (by omega)
  unfold generateAst
  have e0 : drawGamma gamma (g, c) = (.ok (gamma (g 0)), ((fun k => g (k + 1)), c)) := rfl
  have e2 : drawPartition (gamma (g 0)) schema.length ((fun k => g (k + 1)), c) =
      (.ok q, ((fun k => g (k + (1 + schema.length))), c)) := by
    unfold drawPartition
    dsimp only
    rw [h]
    have e1 : (fun k => g (k + schema.length + 1)) = fun k => g (k + (1 + schema.length)) := by
      funext k; congr 1; omega
    rw [e1]
  rw [Py.bind_apply, e0]
  dsimp only
  rw [Py.bind_apply, e2]
  dsimp only
  rw [Py.bind_apply, d1]
  dsimp only
  rw [Py.bind_apply]
  have := primitives_unknown gamma hk 0 ((fun k => g (k + (1 + schema.length + q.length))), c + q.length)
  rcases hp : generatePrimitives gamma 0 schema ((fun k => g (k + (1 + schema.length + q.length))), c + q.length) with ⟨r, s⟩
  rw [hp] at this
  have this : r = _ := this
  rw [this]

/-- A schema with a Bernoulli column. -/
example (g : Rng) : (generateAst (fun _ => 1) [⟨"a", "bernoulli".toList, none⟩] (g, 100000)).1 = .error .assertionError :=
  C119_unknown_violated _ _ ⟨_, List.mem_singleton.2 rfl, by unfold Known; decide⟩ g _ (by decide) (by norm_num)

end Cgpm2.Props
