import Verif.Py.Base
import Mathlib.Algebra.Order.Round

/-!
# The text forms of src/sample_crosscat.py

A Python `str` is a list of characters.  `yaml.load` (external) is only modelled on the scalars
written by `core_compile_key_val`.
-/

namespace Cgpm2.CoreDsl

/-- A Python `str`. -/
abbrev Str := List Char

/-- `'%d' % n` (external). -/
def decimal : Int → Str
  | .ofNat n => Nat.toDigits 10 n
  | .negSucc n => '-' :: Nat.toDigits 10 (n + 1)

/-- `int(s)` (external) for a string of digits, with or without a minus sign; anything else is
ValueError (Python also accepts a plus sign and surrounding blanks). -/
def parseInt (s : Str) : Except Err Int :=
  match s with
  | '-' :: ds => if ds ≠ [] ∧ ds.all Char.isDigit then .ok (-(Nat.ofDigitChars 10 ds 0)) else .error .valueError
  | ds => if ds ≠ [] ∧ ds.all Char.isDigit then .ok (Nat.ofDigitChars 10 ds 0) else .error .valueError

/-- `s.split(c)` (external). -/
def split (c : Char) : Str → List Str
  | [] => [[]]
  | x :: xs =>
    if x = c then [] :: split c xs
    else match split c xs with
      | [] => [[x]]
      | w :: ws => (x :: w) :: ws

/-- `s.replace('id:', '')` (external). -/
def dropId : Str → Str
  | [] => []
  | c :: rest =>
    if ['i', 'd', ':'] <+: c :: rest then dropId (rest.drop 2) else c :: dropId rest
termination_by s => s.length
decreasing_by all_goals (simp; try omega)

/-- The key written by `core_compile_distribution` (src/sample_crosscat.py:133). -/
def compileKey (distname : Str) (output : Int) : Str :=
  distname ++ "{id:".toList ++ decimal output ++ "}".toList

/-- The parsing of a key in `core_parse_distribution` (src/sample_crosscat.py:166-168), and in
`embedded_get_distname_output` (src/sample_crosscat.py:203-207), which differ in the order of
the pair. -/
def parseKey (key : Str) : Except Err (Str × Int) := do
  if '{' ∉ key then throw .assertionError
  match split '{' (dropId (key.filter (· ≠ '}'))) with
  | [distname, output] => do
    let n ← parseInt output
    pure (distname, n)
  | _ => throw .valueError

/-- `'%1.4f' % v` (external) for a number that is not whole: the nearest multiple of 1/10000, four
digits after the point. -/
def fixed4 (v : ℚ) : Str :=
  let n := round (v * 10000)
  (if v < 0 then ['-'] else []) ++ Nat.toDigits 10 (n.natAbs / 10000) ++ ['.'] ++
    (let ds := Nat.toDigits 10 (n.natAbs % 10000)
     List.replicate (4 - ds.length) '0' ++ ds)

/-- The number written by `core_compile_key_val` (src/sample_crosscat.py:107-110). -/
def writeNumber (v : ℚ) : Str :=
  if v = truncate v then decimal (truncate v) else fixed4 v

/-- The number `yaml.load` (external) reads back from a decimal numeral. -/
def readNumber (s : Str) : Except Err ℚ :=
  match split '.' s with
  | [a] => do
    let n ← parseInt a
    pure n
  | [a, b] => do
    let sign : ℚ := if a.head? = some '-' then -1 else 1
    let n ← parseInt a
    let m ← parseInt b
    pure (sign * (n.natAbs + m / 10 ^ b.length))
  | _ => throw .valueError

end Cgpm2.CoreDsl
