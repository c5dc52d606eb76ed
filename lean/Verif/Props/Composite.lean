import Verif.Lemmas.BuiltLaws
import Verif.Lemmas.ProductEval
import Verif.Lemmas.ConcreteTower

/-!
# Composites of any depth: serialisation, purity of queries, factorisation of products
-/

namespace Cgpm2.Props
open Spec

/-! ## C20 Serialisation round trip -/

/-- `from_metadata(to_metadata())` succeeds and gives the same object, except for the
user-supplied params of primitives. -/
theorem C20_round_trip {n : Nat} {c : Cgpm n} (h : Built n c) :
    (cgpmI n).fromMetadata ((cgpmI n).toMetadata c) = .ok (withoutParams n c) := by
  rw [← strip_eq]
  exact (cgpmLaws n).clone c (built_inv h)

/-- Every later sequence of calls, with any random state, is answered by the copy as by the
original. -/
theorem C20_same_answers {n : Nat} {c c' : Cgpm n} (h : Built n c)
    (hc : (cgpmI n).fromMetadata ((cgpmI n).toMetadata c) = .ok c') (as : List Ask) (g : Rng) :
    answers (cgpmI n) as (c', g) = answers (cgpmI n) as (c, g) := by
  rw [C20_round_trip h, ← strip_eq] at hc
  cases hc
  exact (answers_E (cgpmLaws n) as ((cgpmLaws n).strip c (built_inv h)) g).symm

example (g g' : Rng) : Built 2 (Concrete.view2 g g') := Concrete.view2_built g g'

/-! ## C30 Queries do not change what a model knows -/

/-- After a query, every later sequence of calls, with any random state, is answered as if the
query had not been made. -/
theorem C30_queries {n : Nat} {c : Cgpm n} (h : Built n c) {q : Ask} (hq : q.IsQuery)
    (g g' : Rng) (as : List Ask) :
    answers (cgpmI n) as ((ask (cgpmI n) q (c, g)).2.1, g') = answers (cgpmI n) as (c, g') :=
  (answers_E (cgpmLaws n) as (ask_query_E (cgpmLaws n) hq (built_inv h) g) g').symm

/-- `logpdf` uses no randomness: it leaves the random state alone and its result does not depend
on it. -/
theorem C30_logpdf_draws_nothing (n : Nat) (r : RowId) (t c i : Dict Var Val) (s : Cgpm n)
    (g g' : Rng) : (ask (cgpmI n) (.logpdf r t c i) (s, g)).2.2 = g ∧
      (ask (cgpmI n) (.logpdf r t c i) (s, g)).1 = (ask (cgpmI n) (.logpdf r t c i) (s, g')).1 := by
  obtain ⟨h1, -, h3⟩ := (cgpmLaws n).logpdf_noDraw r t c i s g g'
  exact ⟨h3, by simp only [ask, h1]⟩

example (g g' : Rng) : ∃ q : Ask, q.IsQuery ∧ Built 2 (Concrete.view2 g g') :=
  ⟨.simulate none [5, 3] [(1, .num 0)] [] (some 4), trivial, Concrete.view2_built g g'⟩

/-! ## C21 Product factorises -/

/-- The log density of a product is the sum over its blocks of the log density of the block's own
part of the query; if a block raises, so does the product.  `I` is the interface of the blocks,
whatever they are, provided their `logpdf` uses no randomness (`C30_logpdf_draws_nothing`). -/
theorem C21_factorises {S : Type} (I : Iface S)
    (hd : ∀ r t c i s g, (I.logpdf r t c i (s, g)).2.2 = g) (p : Product S) (r : RowId)
    (t c i : Dict Var Val) (g : Rng) :
    ((productI I).logpdf r t c i (p, g)).1 =
      (p.cgpms.mapM (blockLogpdf I r t c i g)).map Fl.sum := by
  rw [← each_logpdfOne I hd]
  simp only [productI, Product.logpdf, Product.each, Py.onAttr, Py.bind_apply]
  rcases Py.each (logpdfOne I r t c i) (p.cgpms, g) with ⟨_ | xs, l', g''⟩ <;> rfl

/-- When every block's part has a finite log density, they add up. -/
theorem C21_sum {S : Type} (I : Iface S)
    (hd : ∀ r t c i s g, (I.logpdf r t c i (s, g)).2.2 = g) (p : Product S) (r : RowId)
    (t c i : Dict Var Val) (g : Rng) (x : S → ℝ)
    (hx : ∀ b ∈ p.cgpms, blockLogpdf I r t c i g b = .ok (.fin (x b))) :
    ((productI I).logpdf r t c i (p, g)).1 = .ok (.fin (p.cgpms.map x).sum) := by
  rw [C21_factorises I hd]
  have : p.cgpms.mapM (blockLogpdf I r t c i g) = .ok (p.cgpms.map fun b => .fin (x b)) := by
    have h := p.cgpms
    generalize p.cgpms = l at hx
    clear h
    induction l with
    | nil => rfl
    | cons b l ih =>
      rw [List.mapM_cons, hx b (by simp), ih (fun b' hb' => hx b' (by simp [hb']))]
      rfl
  rw [this]
  simp only [Except.map, Fl.sum_eq]
  congr 1
  generalize p.cgpms = l
  induction l with
  | nil => rfl
  | cons b l ih => simp only [List.map_cons, List.sum_cons, ih]; rfl

/-- Constraints and inputs matter only through the part belonging to blocks that have a target. -/
theorem C21_other_blocks {S : Type} (I : Iface S)
    (hd : ∀ r t c i s g, (I.logpdf r t c i (s, g)).2.2 = g) (p : Product S) (r : RowId)
    (t c i c' i' : Dict Var Val) (g : Rng)
    (h : ∀ b ∈ p.cgpms, only (I.outputs b) t ≠ [] →
      only (I.outputs b) c = only (I.outputs b) c' ∧
      only (I.inputs b) i = only (I.inputs b) i') :
    ((productI I).logpdf r t c i (p, g)).1 = ((productI I).logpdf r t c' i' (p, g)).1 := by
  rw [C21_factorises I hd, C21_factorises I hd]
  congr 1
  refine mapM_congr' _ _ (List.forall₂_same.2 fun b hb => ?_)
  unfold blockLogpdf
  split
  · rfl
  · next ht => rw [(h b hb ht).1, (h b hb ht).2]

/-- The blocks may be any CGPMs of the model. -/
example (n : Nat) (r t c i) (s : Cgpm n) (g : Rng) :
    ((cgpmI n).logpdf r t c i (s, g)).2.2 = g :=
  ((cgpmLaws n).logpdf_noDraw r t c i s g g).2.2

end Cgpm2.Props
