import Verif.Lemmas.CrpSupport

/-!
# Concrete reachable states, used by the `example`s beside the theorems (helpers)
-/

namespace Cgpm2.Concrete
open Spec

/-- A CRP with default hyperparameters: rows 0, 1 at table 0 and row 2 at table 1. -/
noncomputable def crp3 : Prim :=
  run (.crp (Crp.init [5] [] [] []))
    [.observe (some 0) [(5, .num 0)] [], .observe (some 1) [(5, .num 0)] [],
     .observe (some 2) [(5, .num 1)] []]

theorem crp3_created : Created (.crp (Crp.init [5] [] [] [])) := .crp ..

theorem crp3_legally : LegallyReachable crp3 :=
  ⟨_, _, crp3_created, by simp [LegalHypers, Crp.init, Dict.get?], rfl⟩

theorem trunc0 : truncate 0 = 0 := by have := truncate_intCast 0; simpa using this
theorem trunc1 : truncate 1 = 1 := by have := truncate_intCast 1; simpa using this

/-- The same state written out. -/
noncomputable def crp3' : Crp :=
  { outputs := [5], inputs := [], params := [],
    data := [(some 0, 0), (some 1, 0), (some 2, 1)], N := 3, counts := [(0, 2), (1, 1)], alpha := 1 }

theorem crp3_eq : crp3 = .crp crp3' := by
  have h0 : Crp.observe (some 0) [(5, .num 0)] [] (Crp.init [5] [] [] []) = _ :=
    Crp.observe_ok (o := 5) rfl (by simp [Crp.init]) (q := 0)
      (by simp [trunc0, Crp.support, Crp.init, pySorted])
  have h1 : Crp.observe (some 1) [(5, .num 0)] []
      ((Crp.init [5] [] [] []).add (some 0) (truncate 0)) = _ :=
    Crp.observe_ok (o := 5) rfl (by simp [Crp.init, Crp.add, Dict.set, Dict.keys]) (q := 0)
      (by simp [trunc0, Crp.support, Crp.init, pySorted, Crp.add, Dict.set, Dict.keys])
  have h2 : Crp.observe (some 2) [(5, .num 1)] []
      (((Crp.init [5] [] [] []).add (some 0) (truncate 0)).add (some 1) (truncate 0)) = _ :=
    Crp.observe_ok (o := 5) rfl (by simp [Crp.init, Crp.add, Dict.set, Dict.keys]) (q := 1)
      (by simp [trunc0, trunc1, Crp.support, Crp.init, pySorted, Crp.add, Dict.set, Dict.keys,
            pyMax])
  simp only [crp3, run, List.foldl_cons, List.foldl_nil, step, Prim.observe, Py.wrap, h0, h1, h2]
  simp [Crp.add, Crp.init, crp3', trunc0, trunc1, Dict.set, Dict.get?]

/-- A Categorical with three categories holding 2, missing, 0 and a rejected observation. -/
noncomputable def cat3 : Prim :=
  run (.categorical (Categorical.init [1] [] [] [] 3))
    [.observe (some 0) [(1, .num 2)] [], .observe (some 1) [(1, .nan)] [],
     .observe (some 2) [(1, .num 7)] [], .observe (some 2) [(1, .num 0)] []]

theorem cat3_legally : LegallyReachable cat3 :=
  ⟨_, _, .categorical .., by simp [LegalHypers, Categorical.init, Dict.get?], rfl⟩

/-- Bernoulli holding 1, missing. -/
noncomputable def ber2 : Prim :=
  run (.bernoulli (Bernoulli.init [2] [] [] []))
    [.observe (some 0) [(2, .num 1)] [], .observe (some 1) [(2, .nan)] []]

theorem ber2_legally : LegallyReachable ber2 :=
  ⟨_, _, .bernoulli .., by simp [LegalHypers, Bernoulli.init, Dict.get?], rfl⟩

/-- A fresh Normal with default hyperparameters. -/
noncomputable def norm0 : Normal :=
  { outputs := [3], inputs := [], params := [], data := [], N := 0, sumX := 0, sumXSq := 0,
    m := 0, r := 1, s := 1, nu := 1 }

theorem norm0_created : Normal.init [3] [] [] [] = .ok norm0 := by
  simp [Normal.init, Dict.get?, norm0]

/-- Normal holding 5/2, missing, -1. -/
noncomputable def norm3 : Prim :=
  run (.normal norm0)
    [.observe (some 0) [(3, .num (5/2))] [], .observe (some 1) [(3, .nan)] [],
     .observe (some 2) [(3, .num (-1))] []]

theorem norm3_legally : LegallyReachable norm3 :=
  ⟨_, _, .normal norm0_created, by simp [LegalHypers, norm0], rfl⟩

/-- A fresh NormalUC with default parameters. -/
noncomputable def normUC0 : NormalUC :=
  { outputs := [3], inputs := [], hypers := [], params := [], data := [], N := 0, sumX := 0,
    sumXSq := 0, mu := 0, var := 1 }

theorem normUC0_created : NormalUC.init [3] [] [] [] = .ok normUC0 := by
  simp [NormalUC.init, Dict.get?, normUC0]

/-- NormalUC holding 5/2, -1, after a change of parameters. -/
noncomputable def normUC2 : Prim :=
  run (.normalUC normUC0)
    [.observe (some 0) [(3, .num (5/2))] [], .setParams [("mu", 3), ("var", 2)],
     .observe (some 2) [(3, .num (-1))] []]

theorem normUC2_legally : LegallyReachable normUC2 :=
  ⟨_, _, .normalUC normUC0_created, by simp [LegalHypers, normUC0], rfl⟩

/-- NormalUC holding 5/2. -/
noncomputable def normUC1 : Prim := run (.normalUC normUC0) [.observe (some 0) [(3, .num (5/2))] []]

theorem normUC1_legally : LegallyReachable normUC1 :=
  ⟨_, _, .normalUC normUC0_created, by simp [LegalHypers, normUC0], rfl⟩

/-- A fresh Poisson with default hyperparameters. -/
noncomputable def poi0 : Poisson :=
  { outputs := [4], inputs := [], params := [], data := [], N := 0, sumX := 0, sumLogFactX := 0,
    a := 1, b := 1 }

theorem poi0_created : Poisson.init [4] [] [] [] = .ok poi0 := by
  simp [Poisson.init, Dict.get?, poi0]

/-- Poisson holding 3, missing. -/
noncomputable def poi2 : Prim :=
  run (.poisson poi0) [.observe (some 0) [(4, .num 3)] [], .observe (some 1) [(4, .nan)] []]

theorem poi2_legally : LegallyReachable poi2 :=
  ⟨_, _, .poisson poi0_created, by simp [LegalHypers, poi0], rfl⟩

end Cgpm2.Concrete
