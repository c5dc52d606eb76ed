import Mathlib.LinearAlgebra.Matrix.NonsingularInverse
import Mathlib.LinearAlgebra.Matrix.PosDef
import Verif.Model.Normal

/-!
# src/linreg.py

Numbers are exact: `numpy.linalg.inv` and `det` are the inverse and the determinant of a real
matrix.  A number of levels is a natural number, with 0 for `None`.  An integer and the float of
the same value are not distinguished: a whole number counts as an int where Python asks for one.
-/

namespace Cgpm2

/-- `1 + sum(l - 1 if l else 1 for l in levels)` (src/linreg.py:73-74). -/
def regDim (levels : List Nat) : Nat := 1 + (levels.map fun l => if l = 0 then 1 else l - 1).sum

/-- Attributes of `LinearRegression` (src/linreg.py:65-83).  `mu` and `V` are taken to have the
shapes the constructor gives them by default. -/
structure LinReg where
  outputs : List Var
  inputs : List Var
  params : Dict String ℝ
  /-- `distargs['levels']`. -/
  distLevels : List Nat
  levels : Dict Var Nat
  N : Int
  data : Dict RowId Val
  dataYraw : Dict RowId (List (Option Val))
  dataYdum : Dict RowId (List Val)
  a : ℝ
  b : ℝ
  mu : Fin (regDim distLevels) → ℝ
  V : Matrix (Fin (regDim distLevels)) (Fin (regDim distLevels)) ℝ

namespace LinReg

/-- `self.p` (src/linreg.py:74). -/
abbrev p (m : LinReg) : Nat := regDim m.distLevels

/-- `{i:l for i,l in zip(self.inputs, distargs['levels']) if l}` (src/linreg.py:72). -/
def levelsOf (inputs : List Var) (distLevels : List Nat) : Dict Var Nat :=
  Dict.update [] ((inputs.zip distLevels).filter fun il => decide (il.2 ≠ 0))

/-- `LinearRegression.__init__` (src/linreg.py:55-83), with the hyperparameters `a`, `b`, `mu` and
`V` each given or left to their defaults. -/
noncomputable def init (outputs inputs : List Var) (distLevels : List Nat) (a b : Option ℝ)
    (mu : Option (Fin (regDim distLevels) → ℝ))
    (V : Option (Matrix (Fin (regDim distLevels)) (Fin (regDim distLevels)) ℝ))
    (params : Dict String ℝ) : Except Err LinReg :=
  if outputs.length ≠ 1 then .error .assertionError
  else if inputs.length = 0 then .error .assertionError
  else match outputs with
  | [] => .error .indexError
  | o :: _ =>
    if o ∈ inputs then .error .assertionError
    else if distLevels.length ≠ inputs.length then .error .assertionError
    else .ok
      { outputs := outputs, inputs := inputs, params := params, distLevels := distLevels,
        levels := levelsOf inputs distLevels, N := 0, data := [], dataYraw := [], dataYdum := [],
        a := a.getD 1, b := b.getD 1, mu := mu.getD 0, V := V.getD 1 }

/-- `dummy_code_one` (src/linreg.py:277-285). -/
def dummyCodeOne (codes : Dict Var Nat) (i : Var) (val : Val) : Except Err (List Val) :=
  match Dict.get? codes i with
  | none => .ok [val]
  | some levels =>
    match val with
    | .nan => .error .assertionError
    | .num q =>
      if 0 ≤ q ∧ q < levels then
        let coded := List.replicate (levels - 1) (Val.num 0)
        if q < (((levels : Int) - 1 : Int) : ℚ) then
          if isWhole q then .ok (coded.set (truncate q).toNat (.num 1))
          else .error .typeError
        else .ok coded
      else .error .assertionError

/-- `LinearRegression.process_inputs` (src/linreg.py:192-198). -/
def processInputs (m : LinReg) (inputs : Dict Var Val) : Except Err (List Val) := do
  let coded ← m.inputs.mapM fun i => do
    let v ← Dict.getItem inputs i
    dummyCodeOne m.levels i v
  let yDum := coded.flatten
  if yDum.length = m.p - 1 then .ok (.num 1 :: yDum) else .error .assertionError

/-- `LinearRegression.observe` (src/linreg.py:85-94). -/
def observe (rowid : RowId) (observation inputs : Dict Var Val) : Py LinReg Unit := do
  let m ← Py.get
  Py.assert (Dict.has m.data rowid = false)
  Py.assert (Dict.keys observation = m.outputs)
  let o ← Py.lift (firstOutput m.outputs)
  let x ← Py.lift (Dict.getItem observation o)
  let yRaw := m.inputs.map fun i => Dict.get? inputs i
  let yDum ← Py.lift (m.processInputs inputs)
  Py.modify fun m => { m with N := m.N + 1 }
  Py.modify fun m => { m with data := Dict.set m.data rowid x }
  Py.modify fun m => { m with dataYraw := Dict.set m.dataYraw rowid yRaw }
  Py.modify fun m => { m with dataYdum := Dict.set m.dataYdum rowid yDum }

/-- `LinearRegression.unobserve` (src/linreg.py:96-100).  `dict(zip(self.inputs), y_raw)` is a call
of `dict` with two positional arguments, which raises TypeError. -/
def unobserve (rowid : RowId) : Py LinReg (Dict Var Val × Dict Var Val) := do
  let m ← Py.get
  let _x ← Py.lift (Dict.getItem m.data rowid)
  Py.modify fun m => { m with data := Dict.del m.data rowid }
  let _yRaw ← Py.lift (Dict.getItem m.dataYraw rowid)
  Py.modify fun m => { m with dataYraw := Dict.del m.dataYraw rowid }
  let _yDum ← Py.lift (Dict.getItem m.dataYdum rowid)
  Py.modify fun m => { m with dataYdum := Dict.del m.dataYdum rowid }
  let _o ← Py.lift (firstOutput m.outputs)
  Py.throw .typeError

/-- The numbers of a list without missing values. -/
def numbers : List Val → Option (List ℝ)
  | [] => some []
  | .nan :: _ => none
  | .num q :: l => (numbers l).map ((q : ℝ) :: ·)

/-- A list of numbers as a vector. -/
def vec (p : Nat) (l : List ℝ) : Fin p → ℝ := fun i => l.getD i 0

/-- `numpy.dot(X.T, X)` for the matrix with the given rows. -/
def gram {p : Nat} (X : List (Fin p → ℝ)) : Matrix (Fin p) (Fin p) ℝ :=
  Matrix.of fun i j => (X.map fun r => r i * r j).sum

/-- `numpy.dot(X.T, y)`. -/
def cross {p : Nat} (X : List (Fin p → ℝ)) (y : List ℝ) : Fin p → ℝ :=
  fun i => (List.zipWith (fun r x => r i * x) X y).sum

/-- `numpy.dot(x, x)`. -/
def sumSq (y : List ℝ) : ℝ := (y.map fun x => x * x).sum

/-- What `posterior_hypers` returns. -/
structure Post (p : Nat) where
  a : ℝ
  b : ℝ
  mu : Fin p → ℝ
  VInv : Matrix (Fin p) (Fin p) ℝ

open Classical in
/-- `posterior_hypers` (src/linreg.py:233-255).  `none` stands for results with a nan in them, which
is what a missing value anywhere in the data leads to.  `numpy.linalg.inv` raises LinAlgError for a
singular matrix (counted as ValueError here). -/
noncomputable def posteriorHypers {p : Nat} (N : Int) (Y : List (List Val)) (x : List Val) (a b : ℝ)
    (mu : Fin p → ℝ) (V : Matrix (Fin p) (Fin p) ℝ) : Except Err (Option (Post p)) :=
  if N = 0 then
    if x.length = Y.length ∧ Y.length = 0 then
      if V.det = 0 then .error .valueError else .ok (some ⟨a, b, mu, V⁻¹⟩)
    else .error .assertionError
  else if ¬ ((Y.length : Int) = N ∧ ∀ row ∈ Y, row.length = p) then .error .assertionError
  else if ¬ (x.length : Int) = N then .error .assertionError
  else if V.det = 0 then .error .valueError
  else match Y.mapM numbers, numbers x with
  | some rows, some y =>
    let X := rows.map (vec p)
    let VInv := V⁻¹
    let XTX := gram X
    if (VInv + XTX).det = 0 then .error .valueError
    else
      let mun := (VInv + XTX)⁻¹.mulVec (VInv.mulVec mu + cross X y)
      let VnInv := VInv + XTX
      let an := a + N / 2
      let bn := b + (1/2) * (mu ⬝ᵥ VInv.mulVec mu + sumSq y - mun ⬝ᵥ VnInv.mulVec mun)
      .ok (some ⟨an, bn, mun, VnInv⟩)
  | _, _ => .ok none

open Classical in
/-- `calc_log_Z` (src/linreg.py:229-231).  `math.sqrt` and `math.log` raise ValueError unless the
determinant is positive; `numpy.log` gives -inf at zero and nan below. -/
noncomputable def calcLogZ {p : Nat} (a b : ℝ) (VInv : Matrix (Fin p) (Fin p) ℝ) : Except Err Fl :=
  if 0 < VInv.det then
    .ok (.fin (gammaln a + Real.log (Real.sqrt (1 / VInv.det))) +
      if 0 < b then .fin (-(a * Real.log b)) else if b = 0 then .pinf else .nan)
  else .error .valueError

/-- `calc_log_Z` of posterior hyperparameters; nan if there is a nan among them. -/
noncomputable def logZ {p : Nat} : Option (Post p) → Except Err Fl
  | none => .ok .nan
  | some h => calcLogZ h.a h.b h.VInv

/-- `LOG2PI` (src/linreg.py:29). -/
noncomputable def log2pi : ℝ := Real.log (2 * Real.pi)

/-- `calc_predictive_logp` (src/linreg.py:257-263). -/
noncomputable def calcPredictiveLogp {p : Nat} (xs : Val) (ys : List Val) (N : Int) (Y : List (List Val))
    (x : List Val) (a b : ℝ) (mu : Fin p → ℝ) (V : Matrix (Fin p) (Fin p) ℝ) : Except Err Fl := do
  let hn ← posteriorHypers N Y x a b mu V
  let hm ← posteriorHypers (N + 1) (Y ++ [ys]) (x ++ [xs]) a b mu V
  let ZN ← logZ hn
  let ZM ← logZ hm
  pure (.fin (-(1/2) * log2pi) + ZM - ZN)

/-- `calc_logpdf_marginal` (src/linreg.py:265-270). -/
noncomputable def calcLogpdfMarginal {p : Nat} (N : Int) (Y : List (List Val))
    (x : List Val) (a b : ℝ) (mu : Fin p → ℝ) (V : Matrix (Fin p) (Fin p) ℝ) : Except Err Fl := do
  let hn ← posteriorHypers N Y x a b mu V
  let Z0 ← calcLogZ a b V⁻¹
  let ZN ← logZ hn
  pure (.fin (-(N / 2) * log2pi) + ZN - Z0)

/-- `LinearRegression.logpdf` (src/linreg.py:102-109). -/
noncomputable def logpdf (m : LinReg) (rowid : RowId) (targets constraints inputs : Dict Var Val) :
    Except Err Fl := do
  if Dict.has m.data rowid then .error .assertionError
  else if constraints ≠ [] then .error .assertionError
  else if Dict.keys targets ≠ m.outputs then .error .assertionError
  else
    let o ← firstOutput m.outputs
    let x ← Dict.getItem targets o
    let yDum ← m.processInputs inputs
    calcPredictiveLogp x yDum m.N (Dict.values m.dataYdum) (Dict.values m.data) m.a m.b m.mu m.V

/-- One call of `LinearRegression.simulate` (src/linreg.py:111-120, 126-129, 272-275).  The draws of `sigma2`, of the
coefficients and of the value consume three entries of the stream. -/
noncomputable def simulate1 (m : LinReg) (rowid : RowId) (targets : List Var)
    (constraints inputs : Dict Var Val) : Py Rng (Dict Var Val) := do
  Py.assert (targets = m.outputs)
  Py.assert (constraints = [])
  let o ← Py.lift (firstOutput m.outputs)
  match Dict.get? m.data rowid with
  | some x => pure [(o, x)]
  | none => do
    let _yDum ← Py.lift (m.processInputs inputs)
    let _h ← Py.lift (posteriorHypers m.N (Dict.values m.dataYdum) (Dict.values m.data) m.a m.b m.mu m.V)
    fun rng =>
      let (_sigma2, rng) := rng.draw
      let (_b, rng) := rng.draw
      let (x, rng) := rng.draw
      (.ok [(o, .num x)], rng)

/-- `LinearRegression.simulate`. -/
noncomputable def simulate (m : LinReg) (rowid : RowId) (targets : List Var)
    (constraints inputs : Dict Var Val) (N : Option Nat) : Py Rng SimOut :=
  simulateMany (m.simulate1 rowid targets constraints inputs) N

/-- `LinearRegression.logpdf_score` (src/linreg.py:122-124). -/
noncomputable def logpdfScore (m : LinReg) : Except Err Fl :=
  calcLogpdfMarginal m.N (Dict.values m.dataYdum) (Dict.values m.data) m.a m.b m.mu m.V

open Classical in
/-- `LinearRegression.set_hypers` (src/linreg.py:143-147); `none` is nan, for which `> 0.` is
false. -/
noncomputable def setHypers (hypers : Dict String (Option ℝ)) : Py LinReg Unit := do
  let a ← Py.lift (Dict.getItem hypers "a")
  Py.assert (∃ r, a = some r ∧ 0 < r)
  let b ← Py.lift (Dict.getItem hypers "b")
  Py.assert (∃ r, b = some r ∧ 0 < r)
  Py.modify fun m => { m with a := a.getD 0 }
  Py.modify fun m => { m with b := b.getD 0 }

/-- `LinearRegression.get_hypers` (src/linreg.py:149-150). -/
def getHypers (m : LinReg) : Dict String (Option ℝ) := [("a", some m.a), ("b", some m.b)]

/-- `LinearRegression.construct_hyper_grids` (src/linreg.py:161-168); `numpy.var([])` is nan, and so
is every point of a grid with a nan bound. -/
noncomputable def constructHyperGrids (X : List ℚ) (nGrid : Nat) : Dict String (List (Option ℝ)) :=
  let N : ℝ := X.length + 1
  let bGrid := match X with
    | [] => List.replicate nGrid none
    | _ =>
      let ssqdev := Normal.npVar X * X.length + 1
      (logLinspace (ssqdev / 100) ssqdev nGrid).map some
  [("a", (logLinspace (1 / (10 * N)) (10 * N) nGrid).map some), ("b", bGrid)]

/-- Fields of `LinearRegression.to_metadata` (src/linreg.py:200-210). -/
structure Meta where
  outputs : List Var
  inputs : List Var
  N : Int
  data : Dict RowId Val
  dataYraw : Dict RowId (List (Option Val))
  dataYdum : Dict RowId (List Val)
  distLevels : List Nat
  a : ℝ
  b : ℝ

/-- `LinearRegression.to_metadata` (src/linreg.py:200-210). -/
def toMetadata (m : LinReg) : Meta where
  outputs := m.outputs
  inputs := m.inputs
  N := m.N
  data := m.data
  dataYraw := m.dataYraw
  dataYdum := m.dataYdum
  distLevels := m.distLevels
  a := m.a
  b := m.b

/-- `LinearRegression.from_metadata` (src/linreg.py:213-226). -/
noncomputable def fromMetadata (d : Meta) : Except Err LinReg := do
  let model ← init d.outputs d.inputs d.distLevels (some d.a) (some d.b) none none []
  pure { model with
    N := d.N
    data := Dict.update [] d.data
    dataYraw := Dict.update [] d.dataYraw
    dataYdum := Dict.update [] d.dataYdum }

end LinReg
end Cgpm2
