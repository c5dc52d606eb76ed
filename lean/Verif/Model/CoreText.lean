import Verif.Model.CoreDsl

/-!
# The Core DSL of src/sample_crosscat.py: the compiler to text and the parser

The compiler writes to a stream; here it gives the text it writes.  `yaml.load` (external) is modelled
for the part of YAML the compiler uses: block mappings and block sequences told apart by their
indentation, with plain scalars.
-/

namespace Cgpm2.CoreDsl

/-- A distribution in an AST: `(output, (distname, distargs), hypers)`
(src/sample_crosscat.py:76, 132).  The values of the dicts are finite numbers; strings, which are
written as they are (src/sample_crosscat.py:105-106), are not modelled. -/
structure Dist where
  output : Int
  name : Str
  distargs : Option (Dict Str ℚ)
  hypers : Dict Str ℚ

/-- An AST: a list of views, each with its row divider and its distributions
(src/sample_crosscat.py:88-91). -/
abbrev Ast := List (Dist × List Dist)

/-! ## AST to Core DSL -/

/-- `core_compile_indent` (src/sample_crosscat.py:97-99). -/
def indent (i : Nat) : Str := List.replicate i ' '

/-- `core_compile_key_val` (src/sample_crosscat.py:101-110) for a number. -/
def compileKeyVal (i : Nat) (k : Str) (v : ℚ) : Str :=
  indent i ++ k ++ ": ".toList ++ writeNumber v ++ "\n".toList

/-- `core_compile_key` (src/sample_crosscat.py:112-114). -/
def compileKeyLine (i : Nat) (k : Str) : Str := indent i ++ k ++ ":\n".toList

/-- `core_compile_key_list` (src/sample_crosscat.py:116-118). -/
def compileKeyList (i : Nat) (k : Str) : Str := indent i ++ "- ".toList ++ k ++ ":\n".toList

/-- `core_compile_hypers` (src/sample_crosscat.py:120-123). -/
def compileHypers (i : Nat) (hypers : Dict Str ℚ) : Str :=
  compileKeyLine i "hypers".toList ++ hypers.flatMap fun kv => compileKeyVal (i + 2) kv.1 kv.2

/-- `core_compile_distargs` (src/sample_crosscat.py:125-129). -/
def compileDistargs (i : Nat) (distargs : Option (Dict Str ℚ)) : Str :=
  compileKeyLine i "distargs".toList ++
    (distargs.getD []).flatMap fun kv => compileKeyVal (i + 2) kv.1 kv.2

/-- `core_compile_distribution` (src/sample_crosscat.py:131-135). -/
def compileDistribution (i : Nat) (d : Dist) : Str :=
  compileKeyList i (compileKey d.name d.output) ++ compileDistargs (i + 4) d.distargs ++
    compileHypers (i + 4) d.hypers

/-- `core_compile_distributions` (src/sample_crosscat.py:137-140). -/
def compileDistributions (i : Nat) (ds : List Dist) : Str :=
  compileKeyLine i "distribution models".toList ++ ds.flatMap (compileDistribution (i + 2))

/-- `core_compile_row_clustering` (src/sample_crosscat.py:142-144). -/
def compileRowClustering (i : Nat) (d : Dist) : Str :=
  compileKeyLine i "row clustering model".toList ++ compileDistribution (i + 2) d

/-- `core_compile_view` (src/sample_crosscat.py:146-150). -/
def compileView (i : Nat) (view : Dist × List Dist) : Str :=
  compileKeyList i "view".toList ++ compileRowClustering (i + 4) view.1 ++
    compileDistributions (i + 4) view.2

/-- `compile_ast_to_core_dsl` (src/sample_crosscat.py:152-156). -/
def compileAst (ast : Ast) : Str := ast.flatMap (compileView 0)

/-! ## yaml.load (external) -/

/-- What `yaml.load` returns: `None`, a number, a string, a list or a dict. -/
inductive Yaml
  | null
  | num (q : ℚ)
  | str (s : Str)
  | seq (items : List Yaml)
  | map (entries : List (Str × Yaml))

/-- A mark of a line: the dash of an item of a sequence, or a key of a mapping, with its value if that
is on the same line; and the column. -/
inductive Tok
  | dash (col : Nat)
  | entry (col : Nat) (key : Str) (val : Option Str)

def Tok.col : Tok → Nat
  | .dash c => c
  | .entry c _ _ => c

/-- A key ends at the first colon that is followed by a blank or ends the line. -/
def splitKey : Str → Option (Str × Option Str)
  | [] => none
  | [':'] => some ([], none)
  | ':' :: ' ' :: rest => some ([], some rest)
  | c :: rest => (splitKey rest).map fun kv => (c :: kv.1, kv.2)

/-- The marks of a line without its indentation, which begins at column `col`.  A line without a key
is outside the model. -/
def lineToks (col : Nat) : Str → Except Err (List Tok)
  | '-' :: ' ' :: rest => match splitKey rest with
    | some (k, v) => .ok [.dash col, .entry (col + 2) k v]
    | none => .error .valueError
  | s => match splitKey s with
    | some (k, v) => .ok [.entry col k v]
    | none => .error .valueError

/-- The marks of a line; none if it is empty. -/
def toks (line : Str) : Except Err (List Tok) :=
  if line = [] then .ok []
  else lineToks (line.takeWhile (· = ' ')).length (line.dropWhile (· = ' '))

/-- A plain scalar: a number if it reads as one, otherwise a string.  The words YAML takes for truth
values or `None` do not occur. -/
def scalar (s : Str) : Yaml :=
  match readNumber s with
  | .ok q => .num q
  | .error _ => .str s

mutual

/-- A node whose marks are at column `low` or to the right of it; `None` if there are none.  `fuel`
bounds the nesting of the calls. -/
def node : Nat → Nat → List Tok → Except Err (Yaml × List Tok)
  | 0, _, _ => .error .valueError
  | _ + 1, _, [] => .ok (.null, [])
  | fuel + 1, low, t :: ts =>
    if t.col < low then .ok (.null, t :: ts)
    else match t with
      | .dash c => do
        let (l, rest) ← items fuel c (t :: ts)
        pure (.seq l, rest)
      | .entry c _ _ => do
        let (l, rest) ← entries fuel c [] (t :: ts)
        pure (.map l, rest)

/-- The items of a sequence with its dashes at column `col`. -/
def items : Nat → Nat → List Tok → Except Err (List Yaml × List Tok)
  | 0, _, _ => .error .valueError
  | _ + 1, _, [] => .ok ([], [])
  | fuel + 1, col, t :: ts =>
    if t.col < col then .ok ([], t :: ts)
    else match t with
      | .dash c => if c = col then do
          let (y, rest) ← node fuel (col + 1) ts
          let (ys, rest') ← items fuel col rest
          pure (y :: ys, rest')
        else .error .valueError
      | .entry _ _ _ => .error .valueError

/-- The entries of a mapping with its keys at column `col`; a later entry replaces an earlier one with
the same key. -/
def entries : Nat → Nat → Dict Str Yaml → List Tok → Except Err (Dict Str Yaml × List Tok)
  | 0, _, _, _ => .error .valueError
  | _ + 1, _, acc, [] => .ok (acc, [])
  | fuel + 1, col, acc, t :: ts =>
    if t.col < col then .ok (acc, t :: ts)
    else match t with
      | .dash _ => .error .valueError
      | .entry c k v => if c = col then
          match v with
          | some s => entries fuel col (Dict.set acc k (scalar s)) ts
          | none => do
            let (y, rest) ← node fuel (col + 1) ts
            entries fuel col (Dict.set acc k y) rest
        else .error .valueError

end

/-- `yaml.load` (external). -/
def yamlLoad (text : Str) : Except Err Yaml := do
  let ts ← (split '\n' text).mapM toks
  let (y, rest) ← node (2 * ts.flatten.length + 2) 0 ts.flatten
  if rest.isEmpty then pure y else .error .valueError

/-! ## Core DSL to AST -/

/-- A distribution as parsed: `(output, (distname, distargs), hypers)`, where the two dicts are what
`yaml.load` made of them. -/
structure Parsed where
  output : Int
  name : Str
  distargs : Yaml
  hypers : Yaml

/-- `d[k]` for a string `k`. -/
def Yaml.getItem (k : Str) : Yaml → Except Err Yaml
  | .map d => Dict.getItem d k
  | _ => .error .typeError

/-- `l[0]`; a dict with string keys raises KeyError. -/
def Yaml.first : Yaml → Except Err Yaml
  | .seq (y :: _) => .ok y
  | .seq [] => .error .indexError
  | .map _ => .error .keyError
  | _ => .error .typeError

/-- `for y in l`, where `l` is a list; `None` and numbers raise TypeError.  Strings and dicts, whose
items are strings, do not get as far in this program, and raise TypeError here too. -/
def Yaml.list : Yaml → Except Err (List Yaml)
  | .seq l => .ok l
  | _ => .error .typeError

/-- `core_parse_distribution` (src/sample_crosscat.py:161-168). -/
def parseDistribution (y : Yaml) : Except Err Parsed :=
  match y with
  | .map [(key, body)] => do
    let distargs ← body.getItem "distargs".toList
    let hypers ← body.getItem "hypers".toList
    let (name, output) ← parseKey key
    pure ⟨output, name, distargs, hypers⟩
  | .map _ => .error .assertionError
  | .seq [_] => .error .attributeError
  | .seq _ => .error .assertionError
  | _ => .error .typeError

/-- `core_parse_view` (src/sample_crosscat.py:170-175). -/
def parseView (y : Yaml) : Except Err (Parsed × List Parsed) := do
  let rowClustering ← y.getItem "row clustering model".toList
  let distributions ← y.getItem "distribution models".toList
  let first ← rowClustering.first
  let crp ← parseDistribution first
  let ds ← distributions.list
  let parsed ← ds.mapM parseDistribution
  pure (crp, parsed)

/-- `parse_core_dsl_to_ast` (src/sample_crosscat.py:177-179). -/
def parseCore (text : Str) : Except Err (List (Parsed × List Parsed)) := do
  let y ← yamlLoad text
  let views ← y.list
  views.mapM fun view => do
    let v ← view.getItem "view".toList
    parseView v

end Cgpm2.CoreDsl
