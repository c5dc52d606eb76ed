import Verif.Lemmas.CoreText
import Verif.Spec.CoreDsl

/-!
# Reading back a whole AST (helpers)
-/

namespace Cgpm2.CoreDsl

theorem Word.not_mem {k : Str} (h : Word k) {c : Char} (hc : c.isAlpha = false) (hu : c ≠ '_') : c ∉ k := by
  intro hm
  rcases h.2 c hm with h | h
  · rw [hc] at h; cases h
  · exact hu h

theorem Word.head {k : Str} (h : Word k) : ∃ c cs, k = c :: cs ∧ c ≠ ' ' ∧ c ≠ '-' := by
  rcases k with _ | ⟨c, cs⟩
  · exact absurd rfl h.1
  · exact ⟨c, cs, rfl, fun e => h.not_mem (c := ' ') (by decide) (by decide) (by simp [e]),
      fun e => h.not_mem (c := '-') (by decide) (by decide) (by simp [e])⟩

theorem Word.readable {k : Str} (h : Word k) : Readable k :=
  readable_of_plain (h.not_mem (by decide) (by decide)) h.head (h.not_mem (by decide) (by decide))

theorem Word.readableKey {k : Str} (h : Word k) (n : Int) : Readable (compileKey k n) :=
  readable_compileKey (h.not_mem (by decide) (by decide)) h.head (h.not_mem (by decide) (by decide)) n

theorem Word.parse {k : Str} (h : Word k) (n : Int) : parseKey (compileKey k n) = .ok (k, n) :=
  parseKey_compileKey (h.not_mem (by decide) (by decide)) (h.not_mem (by decide) (by decide))
    (fun hi => h.not_mem (c := ':') (by decide) (by decide) (hi.subset (by simp))) n

theorem readable_const {k : Str} (h : ':' ∉ k) (hl : '\n' ∉ k) {c : Char} {cs : Str} (e : k = c :: cs)
    (h1 : c ≠ ' ') (h2 : c ≠ '-') : Readable k := readable_of_plain h ⟨c, cs, e, h1, h2⟩ hl

/-- The number read back for a number. -/
def rounded (v : ℚ) : ℚ := if v = truncate v then v else (round (v * 10000) : Int) / 10000

theorem scalar_writeNumber (v : ℚ) : scalar (writeNumber v) = .num (rounded v) := by
  rw [scalar, read_write]
  rfl

/-- What is read back for a dict. -/
def yamlDict (d : Dict Str ℚ) : Yaml :=
  if d = [] then .null else .map (d.map fun kv => (kv.1, .num (rounded kv.2)))

/-- The entries of a dict. -/
def dictPieces (d : Dict Str ℚ) : List Piece := d.map fun kv => .inline kv.1 (writeNumber kv.2)

theorem lines_dict {d : Dict Str ℚ} (h : Writable d) (i : Nat) :
    Lines (d.flatMap fun kv => compileKeyVal i kv.1 kv.2) ((dictPieces d).flatMap (Piece.toks i)) := by
  rw [dictPieces, List.flatMap_map]
  exact Lines.flatMap fun kv hkv =>
    lines_keyVal (h.2 _ (List.mem_map.2 ⟨kv, hkv, rfl⟩)).readable i kv.2

theorem reads_dict {d : Dict Str ℚ} (h : Writable d) {low i : Nat} (hi : low ≤ i) :
    Reads low ((dictPieces d).flatMap (Piece.toks i)) (yamlDict d) := by
  unfold yamlDict
  split
  · next e =>
    subst e
    exact reads_null low
  · next e =>
    have := reads_map (l := dictPieces d) hi (by simpa [dictPieces] using e)
      (by simpa [dictPieces, List.map_map, Function.comp_def, Piece.key, Dict.keys] using h.1)
      (by
        intro p hp
        obtain ⟨kv, -, rfl⟩ := List.mem_map.1 hp
        trivial)
    have he : (dictPieces d).map (fun p => (p.key, p.val)) =
        d.map fun kv => (kv.1, Yaml.num (rounded kv.2)) := by
      simp [dictPieces, Piece.key, Piece.val, scalar_writeNumber]
    rwa [he] at this

/-- The body read back for a distribution. -/
def bodyYaml (d : Dist) : Yaml :=
  .map [("distargs".toList, yamlDict (d.distargs.getD [])), ("hypers".toList, yamlDict d.hypers)]

/-- The two entries of the body, whose entries are at column `i + 2`. -/
def bodyPieces (i : Nat) (d : Dist) : List Piece :=
  [.below "distargs".toList ((dictPieces (d.distargs.getD [])).flatMap (Piece.toks (i + 2)))
      (yamlDict (d.distargs.getD [])),
    .below "hypers".toList ((dictPieces d.hypers).flatMap (Piece.toks (i + 2))) (yamlDict d.hypers)]

/-- The entry for a distribution whose dash is at column `i`. -/
def distPiece (i : Nat) (d : Dist) : Piece :=
  .below (compileKey d.name d.output) ((bodyPieces (i + 4) d).flatMap (Piece.toks (i + 4))) (bodyYaml d)

/-- What is read back for a distribution. -/
def distYaml (d : Dist) : Yaml := .map [(compileKey d.name d.output, bodyYaml d)]

/-- The marks of a distribution after its dash. -/
def distToks (i : Nat) (d : Dist) : List Tok := (distPiece i d).toks (i + 2)

theorem readable_distargs : Readable "distargs".toList := Word.readable (by decide)
theorem readable_hypers : Readable "hypers".toList := Word.readable (by decide)
theorem readable_view : Readable "view".toList := Word.readable (by decide)
theorem readable_rows : Readable "row clustering model".toList :=
  readable_const (by decide) (by decide) (c := 'r') (cs := "ow clustering model".toList) rfl (by decide) (by decide)
theorem readable_models : Readable "distribution models".toList :=
  readable_const (by decide) (by decide) (c := 'd') (cs := "istribution models".toList) rfl (by decide) (by decide)

theorem lines_dist {d : Dist} (h : d.Writable) (i : Nat) :
    Lines (compileDistribution i d) (.dash i :: distToks i d) := by
  have h1 := lines_list (h.name.readableKey d.output) i
  have h2 := (lines_key readable_distargs (i + 4)).append (lines_dict h.distargs (i + 4 + 2))
  have h3 := (lines_key readable_hypers (i + 4)).append (lines_dict h.hypers (i + 4 + 2))
  have := (h1.append h2).append h3
  simpa [compileDistribution, compileDistargs, compileHypers, distToks, distPiece, Piece.toks,
    bodyPieces] using this

theorem reads_dist {d : Dist} (h : d.Writable) (i : Nat) : Reads (i + 1) (distToks i d) (distYaml d) := by
  have hb : Reads (i + 2 + 1) ((bodyPieces (i + 4) d).flatMap (Piece.toks (i + 4))) (bodyYaml d) := by
    refine reads_map (l := bodyPieces (i + 4) d) (by omega) (by simp [bodyPieces])
      (by simp [bodyPieces, Piece.key]) ?_
    intro p hp
    simp only [bodyPieces, List.mem_cons, List.not_mem_nil, or_false] at hp
    rcases hp with rfl | rfl
    · exact reads_dict h.distargs (by omega)
    · exact reads_dict h.hypers (by omega)
  have := reads_map (low := i + 1) (col := i + 2) (by omega) (l := [distPiece i d]) (by simp) (by simp)
    (by
      intro p hp
      rw [List.mem_singleton] at hp
      subst hp
      exact hb)
  simpa [distToks, distYaml, distPiece, Piece.key, Piece.val] using this

/-- The marks of a list of distributions. -/
def distsToks (i : Nat) (ds : List Dist) : List Tok := ds.flatMap fun d => .dash i :: distToks i d

theorem lines_dists {ds : List Dist} (h : ∀ d ∈ ds, d.Writable) (i : Nat) :
    Lines (ds.flatMap (compileDistribution i)) (distsToks i ds) :=
  Lines.flatMap fun d hd => lines_dist (h d hd) i

theorem reads_dists {ds : List Dist} (hne : ds ≠ []) (h : ∀ d ∈ ds, d.Writable) {low i : Nat}
    (hi : low ≤ i) : Reads low (distsToks i ds) (.seq (ds.map distYaml)) := by
  have := reads_seq (l := ds.map fun d => (distToks i d, distYaml d)) hi (by simpa using hne)
    (by
      intro p hp
      obtain ⟨d, hd, rfl⟩ := List.mem_map.1 hp
      exact reads_dist (h d hd) i)
  simpa [distsToks, List.flatMap_map, List.map_map, Function.comp_def] using this

/-- The body read back for a view. -/
def viewBody (v : Dist × List Dist) : Yaml :=
  .map [("row clustering model".toList, .seq [distYaml v.1]),
    ("distribution models".toList, .seq (v.2.map distYaml))]

/-- The two entries of a view, at column `i`. -/
def viewPieces (i : Nat) (v : Dist × List Dist) : List Piece :=
  [.below "row clustering model".toList (distsToks (i + 2) [v.1]) (.seq [distYaml v.1]),
    .below "distribution models".toList (distsToks (i + 2) v.2) (.seq (v.2.map distYaml))]

/-- The entry of a view whose dash is at column `i`. -/
def viewPiece (i : Nat) (v : Dist × List Dist) : Piece :=
  .below "view".toList ((viewPieces (i + 4) v).flatMap (Piece.toks (i + 4))) (viewBody v)

/-- What is read back for a view. -/
def viewYaml (v : Dist × List Dist) : Yaml := .map [("view".toList, viewBody v)]

theorem lines_view {v : Dist × List Dist} (h : ViewWritable v) (i : Nat) :
    Lines (compileView i v) (.dash i :: (viewPiece i v).toks (i + 2)) := by
  have h1 := lines_list readable_view i
  have h2 := (lines_key readable_rows (i + 4)).append (lines_dist h.divide (i + 4 + 2))
  have h3 := (lines_key readable_models (i + 4)).append (lines_dists h.dists (i + 4 + 2))
  have := (h1.append h2).append h3
  simpa [compileView, compileRowClustering, compileDistributions, viewPiece, viewPieces, Piece.toks,
    distsToks] using this

theorem reads_view {v : Dist × List Dist} (h : ViewWritable v) (i : Nat) :
    Reads (i + 1) ((viewPiece i v).toks (i + 2)) (viewYaml v) := by
  have hb : Reads (i + 2 + 1) ((viewPieces (i + 4) v).flatMap (Piece.toks (i + 4))) (viewBody v) := by
    refine reads_map (l := viewPieces (i + 4) v) (by omega) (by simp [viewPieces])
      (by simp [viewPieces, Piece.key]) ?_
    intro p hp
    simp only [viewPieces, List.mem_cons, List.not_mem_nil, or_false] at hp
    rcases hp with rfl | rfl
    · exact reads_dists (ds := [v.1]) (by simp) (by simpa using h.divide) (by omega)
    · exact reads_dists h.ne h.dists (by omega)
  have := reads_map (low := i + 1) (col := i + 2) (by omega) (l := [viewPiece i v]) (by simp) (by simp)
    (by
      intro p hp
      rw [List.mem_singleton] at hp
      subst hp
      exact hb)
  simpa [viewYaml, viewPiece, Piece.key, Piece.val] using this

theorem yamlLoad_compile {ast : Ast} (hne : ast ≠ []) (h : ∀ v ∈ ast, ViewWritable v) :
    yamlLoad (compileAst ast) = .ok (.seq (ast.map viewYaml)) := by
  have hl : Lines (compileAst ast) (ast.flatMap fun v => .dash 0 :: (viewPiece 0 v).toks 2) :=
    Lines.flatMap fun v hv => lines_view (h v hv) 0
  obtain ⟨U, hU, hf⟩ := hl [] [[]] rfl
  rw [List.append_nil] at hU
  have hr := reads_seq (low := 0) (col := 0) le_rfl
    (l := ast.map fun v => ((viewPiece 0 v).toks 2, viewYaml v)) (by simpa using hne)
    (by
      intro p hp
      obtain ⟨v, hv, rfl⟩ := List.mem_map.1 hp
      exact reads_view (h v hv) 0)
  simp only [List.flatMap_map, List.map_map, Function.comp_def] at hr
  have hn := hr (2 * U.flatten.length + 2) (by rw [hf]; unfold enough; simp) [] (by simp)
  have hf' : U.flatten = ast.flatMap (fun v => .dash 0 :: (viewPiece 0 v).toks 2) ++ [] := by
    rw [hf]; simp
  rw [yamlLoad, hU]
  change (do
    let (y, rest) ← node (2 * U.flatten.length + 2) 0 U.flatten
    if rest.isEmpty then pure y else .error .valueError : Except Err Yaml) = _
  rw [← hf'] at hn
  rw [hn]
  rfl

/-- What is parsed for a distribution. -/
def loaded (d : Dist) : Parsed :=
  ⟨d.output, d.name, yamlDict (d.distargs.getD []), yamlDict d.hypers⟩

theorem getItem_first (a b : Str) (x y : Yaml) : (Yaml.map [(a, x), (b, y)]).getItem a = .ok x := by
  simp [Yaml.getItem, Dict.getItem, Dict.get?]

theorem getItem_second {a b : Str} (h : a ≠ b) (x y : Yaml) :
    (Yaml.map [(a, x), (b, y)]).getItem b = .ok y := by
  simp [Yaml.getItem, Dict.getItem, Dict.get?, h]

theorem parseDistribution_yaml {d : Dist} (h : d.Writable) :
    parseDistribution (distYaml d) = .ok (loaded d) := by
  rw [distYaml, parseDistribution, bodyYaml, getItem_first, getItem_second (by decide)]
  change (do
    let (name, output) ← parseKey (compileKey d.name d.output)
    pure ⟨output, name, _, _⟩ : Except Err Parsed) = _
  rw [h.name.parse]
  rfl

theorem mapM_parse {ds : List Dist} (h : ∀ d ∈ ds, d.Writable) :
    (ds.map distYaml).mapM parseDistribution = .ok (ds.map loaded) := by
  induction ds with
  | nil => rfl
  | cons d ds ih =>
    rw [List.map_cons, List.mapM_cons, parseDistribution_yaml (h d (by simp)),
      ih fun e he => h e (by simp [he])]
    rfl

theorem parseView_yaml {v : Dist × List Dist} (h : ViewWritable v) :
    parseView (viewBody v) = .ok (loaded v.1, v.2.map loaded) := by
  rw [parseView, viewBody, getItem_first, getItem_second (by decide)]
  change (do
    let crp ← parseDistribution (distYaml v.1)
    let parsed ← (v.2.map distYaml).mapM parseDistribution
    pure (crp, parsed) : Except Err _) = _
  rw [parseDistribution_yaml h.divide, mapM_parse h.dists]
  rfl

theorem parseCore_compile {ast : Ast} (hne : ast ≠ []) (h : ∀ v ∈ ast, ViewWritable v) :
    parseCore (compileAst ast) = .ok (ast.map fun v => (loaded v.1, v.2.map loaded)) := by
  rw [parseCore, yamlLoad_compile hne h]
  change (ast.map viewYaml).mapM _ = _
  clear hne
  induction ast with
  | nil => rfl
  | cons v ast ih =>
    rw [List.map_cons, List.mapM_cons, ih fun w hw => h w (by simp [hw])]
    have : (viewYaml v).getItem "view".toList = .ok (viewBody v) := by
      simp [viewYaml, Yaml.getItem, Dict.getItem, Dict.get?]
    rw [this]
    change (do
      let a ← parseView (viewBody v)
      let l ← _
      pure (a :: l) : Except Err _) = _
    rw [parseView_yaml (h v (by simp))]
    rfl

end Cgpm2.CoreDsl
