import Verif.Spec.Hypers
import Verif.Lemmas.PrimScore
import Verif.Lemmas.Flip
import Verif.Lemmas.FlSum
import Verif.Lemmas.MoveRow
import Verif.Lemmas.PrimLaws
import Verif.Props.PrimGrids

/-!
# Hyperparameter transitions (helpers)
-/

set_option linter.unusedSimpArgs false

namespace Cgpm2
open Spec

theorem Py.assert_bind_pos {S α : Type} {p : Prop} [Decidable p] (hp : p) (f : Unit → Py S α) (s : S) :
    (Py.assert p >>= f) s = f () s := by
  rw [Py.bind_apply, Py.assert_apply, if_pos hp]

theorem Py.assert_bind_neg {S α : Type} {p : Prop} [Decidable p] (hp : ¬ p) (f : Unit → Py S α)
    (s : S) : (Py.assert p >>= f) s = (.error .assertionError, s) := by
  rw [Py.bind_apply, Py.assert_apply, if_neg hp]

namespace Spec.SameButHypers

theorem refl (p : Prim) : SameButHypers p p := by cases p <;> rfl

theorem trans {p q r : Prim} (h1 : SameButHypers p q) (h2 : SameButHypers q r) :
    SameButHypers p r := by
  cases p <;> cases q <;> try exact False.elim h1
  all_goals cases r <;> try exact False.elim h2
  all_goals
    simp only [SameButHypers] at h1 h2 ⊢
    rw [h2, h1]

theorem symm {p q : Prim} (h1 : SameButHypers p q) : SameButHypers q p := by
  cases p <;> cases q <;> try exact False.elim h1
  all_goals
    simp only [SameButHypers] at h1 ⊢
    rw [h1]

theorem kind {p q : Prim} (h1 : SameButHypers p q) : q.kind = p.kind := by
  cases p <;> cases q <;> first | exact False.elim h1 | rfl

theorem data {p q : Prim} (h1 : SameButHypers p q) : q.data = p.data := by
  cases p <;> cases q <;> try exact False.elim h1
  all_goals simp only [SameButHypers] at h1; rw [h1]; rfl

theorem outputs {p q : Prim} (h1 : SameButHypers p q) : q.outputs = p.outputs := by
  cases p <;> cases q <;> try exact False.elim h1
  all_goals simp only [SameButHypers] at h1; rw [h1]; rfl

theorem inputs {p q : Prim} (h1 : SameButHypers p q) : q.inputs = p.inputs := by
  cases p <;> cases q <;> try exact False.elim h1
  all_goals simp only [SameButHypers] at h1; rw [h1]; rfl

end Spec.SameButHypers

namespace Prim

/-- `set_hypers` changes nothing but the hyperparameters, whatever happens. -/
theorem setHypers_same (p : Prim) (h : Dict String ℝ) : SameButHypers p (p.setHypers h).2 := by
  cases p with
  | crp c => rcases Crp.setHypers_cases c h with ⟨e, he⟩ | ⟨a, _, ha, he⟩ <;>
      (simp only [setHypers, Py.wrap, he]; rfl)
  | categorical c => rcases Categorical.setHypers_cases c h with ⟨e, he⟩ | ⟨a, _, ha, he⟩ <;>
      (simp only [setHypers, Py.wrap, he]; rfl)
  | bernoulli c => rcases Bernoulli.setHypers_cases c h with ⟨e, he⟩ | ⟨a, b, _, _, ha, hb, he⟩ <;>
      (simp only [setHypers, Py.wrap, he]; rfl)
  | normal c =>
    rcases Normal.setHypers_cases c h with ⟨e, he⟩ | ⟨m, r, s, nu, _, _, _, _, pr, ps, pn, he⟩ <;>
      (simp only [setHypers, Py.wrap, he]; rfl)
  | normalUC c =>
    rcases NormalUC.setHypers_cases c h with ⟨e, he⟩ | ⟨m, r, s, nu, _, _, _, _, pr, ps, pn, he⟩ <;>
      (simp only [setHypers, Py.wrap, he]; rfl)
  | poisson c => rcases Poisson.setHypers_cases c h with ⟨e, he⟩ | ⟨a, b, _, _, ha, hb, he⟩ <;>
      (simp only [setHypers, Py.wrap, he]; rfl)


/-- Objects that agree on everything but hyperparameters, and on the reported hyperparameters, have
the same score. -/
theorem score_congr {p q : Prim} (h : SameButHypers p q)
    (hh : ∀ n ∈ hyperNames p.kind, Dict.get? q.getHypers n = Dict.get? p.getHypers n) :
    q.score = p.score := by
  cases p <;> cases q <;> try exact False.elim h
  case crp.crp a b =>
    have h1 := hh "alpha" (by simp [hyperNames, kind])
    simp [getHypers, Crp.getHypers, Dict.get?] at h1
    simp only [SameButHypers] at h; rw [h, h1]
  case categorical.categorical a b =>
    have h1 := hh "alpha" (by simp [hyperNames, kind])
    simp [getHypers, Categorical.getHypers, Dict.get?] at h1
    simp only [SameButHypers] at h; rw [h, h1]
  case bernoulli.bernoulli a b =>
    have h1 := hh "alpha" (by simp [hyperNames, kind])
    have h2 := hh "beta" (by simp [hyperNames, kind])
    simp [getHypers, Bernoulli.getHypers, Dict.get?] at h1 h2
    simp only [SameButHypers] at h; rw [h, h1, h2]
  case normal.normal a b =>
    have h1 := hh "m" (by simp [hyperNames, kind])
    have h2 := hh "r" (by simp [hyperNames, kind])
    have h3 := hh "s" (by simp [hyperNames, kind])
    have h4 := hh "nu" (by simp [hyperNames, kind])
    simp [getHypers, Normal.getHypers, Dict.get?] at h1 h2 h3 h4
    simp only [SameButHypers] at h; rw [h, h1, h2, h3, h4]
  case normalUC.normalUC a b =>
    simp only [SameButHypers] at h; rw [h]; rfl
  case poisson.poisson a b =>
    have h1 := hh "a" (by simp [hyperNames, kind])
    have h2 := hh "b" (by simp [hyperNames, kind])
    simp [getHypers, Poisson.getHypers, Dict.get?] at h1 h2
    simp only [SameButHypers] at h; rw [h, h1, h2]

/-- Classes whose hyperparameters are attributes report exactly those. -/
theorem mem_keys_getHypers {p : Prim} (h : p.kind ≠ .normalUC) (n : String) :
    n ∈ Dict.keys p.getHypers ↔ n ∈ hyperNames p.kind := by
  cases p <;> simp [getHypers, Crp.getHypers, Categorical.getHypers, Bernoulli.getHypers,
    Normal.getHypers, Poisson.getHypers, hyperNames, kind] at h ⊢

theorem hypersOk_getHypers {p : Prim} (hp : LegalHypers p) (h : p.kind ≠ .normalUC) :
    HypersOk p.kind p.getHypers := by
  cases p <;> simp_all [getHypers, Crp.getHypers, Categorical.getHypers, Bernoulli.getHypers,
    Normal.getHypers, Poisson.getHypers, hyperNames, kind, HypersOk, LegalHypers, Dict.get?]

/-- The object with new hyperparameters. -/
noncomputable def withHypers (h : Dict String ℝ) (p : Prim) : Prim := (p.setHypers h).2

theorem setHypers_ok {p : Prim} {h : Dict String ℝ} (hk : HypersOk p.kind h) :
    p.setHypers h = (.ok (), withHypers h p) := by
  have := (Props.C18_setHypers p h).1.2 hk
  unfold withHypers
  rcases e : p.setHypers h with ⟨a, b⟩
  rw [e] at this
  rw [show a = Except.ok () from this]

theorem withHypers_kind (h : Dict String ℝ) (p : Prim) : (withHypers h p).kind = p.kind :=
  (setHypers_same p h).kind

theorem withHypers_good {p : Prim} (hp : p.Good) (h : Dict String ℝ) : (withHypers h p).Good := by
  unfold withHypers
  rcases setHypers_cases p h with ⟨e, he⟩ | ⟨p', he, _, _, _, _, h1, h2⟩ <;> rw [he]
  · exact hp
  · exact ⟨h1 hp.1, h2 hp.2⟩

theorem withHypers_score {p q : Prim} (hs : SameButHypers p q) {h : Dict String ℝ}
    (hk : HypersOk p.kind h) : (withHypers h q).score = (withHypers h p).score := by
  apply score_congr
  · exact ((setHypers_same p h).symm.trans hs).trans (setHypers_same q h)
  · intro n hn
    rw [withHypers_kind] at hn
    have h1 := ((Props.C18_setHypers p h).2.1 hk).1 n hn
    have h2 := ((Props.C18_setHypers q h).2.1 (by rw [hs.kind]; exact hk)).1 n
      (by rw [hs.kind]; exact hn)
    exact h2.trans h1.symm

theorem withHypers_has {p : Prim} {h : Dict String ℝ} (hk : HypersOk p.kind h) :
    HasHypers (withHypers h p) h := by
  intro n hn
  rw [withHypers_kind] at hn
  obtain ⟨x, hx, _⟩ := hk n hn
  exact ⟨x, hx, (((Props.C18_setHypers p h).2.1 hk).1 n hn).trans hx⟩

end Prim

open Prim

theorem setAndScore_ok {p : Prim} (hp : p.Good) {h : Dict String ℝ} (hk : HypersOk p.kind h)
    (g : Rng) : setAndScore h (p, g) = (.ok (.fin (withHypers h p).score), (withHypers h p, g)) := by
  have hg := withHypers_good hp h
  have hs := logpdfScore_eq hg.1 hg.2
  simp only [setAndScore, Py.bind_apply, Py.onFst, setHypers_ok hk, Py.get_apply, Py.lift_apply, hs]

/-- Whatever happens, only hyperparameters change. -/
theorem setAndScore_same (p : Prim) (h : Dict String ℝ) (g : Rng) :
    SameButHypers p (setAndScore h (p, g)).2.1 := by
  have := setHypers_same p h
  simp only [setAndScore, Py.bind_apply, Py.onFst]
  rcases e : p.setHypers h with ⟨_ | _, q⟩ <;> rw [e] at this
  · exact this
  · exact this

/-- `each` relates the components pairwise, if each call does. -/
theorem each_forall₂ {S T α : Type} {R : S → S → Prop} (hr : ∀ s, R s s) {m : Py (S × T) α}
    (hm : ∀ s g, R s (m (s, g)).2.1) : ∀ (ss : List S) (g : T),
    List.Forall₂ R ss (Py.each m (ss, g)).2.1 := by
  intro ss
  induction ss with
  | nil => intro g; exact .nil
  | cons s ss ih =>
    intro g
    rw [Py.each_cons]
    have h1 := hm s g
    rcases e1 : m (s, g) with ⟨_ | a, s', g'⟩ <;> rw [e1] at h1
    · exact .cons h1 (List.forall₂_same.2 fun x _ => hr x)
    · have h2 := ih g'
      dsimp only
      rcases e2 : Py.each m (ss, g') with ⟨_ | as, ss', g''⟩ <;> rw [e2] at h2
      · exact .cons h1 h2
      · exact .cons h1 h2

/-- Equal but for hyperparameters, object by object. -/
def SameList (ps qs : List Prim) : Prop := List.Forall₂ SameButHypers ps qs

theorem SameList.refl (ps : List Prim) : SameList ps ps :=
  List.forall₂_same.2 fun x _ => SameButHypers.refl x

theorem forall₂_trans {α : Type} {R : α → α → Prop} (h : ∀ {a b c}, R a b → R b c → R a c)
    {l m n : List α} (h1 : List.Forall₂ R l m) (h2 : List.Forall₂ R m n) : List.Forall₂ R l n := by
  induction h1 generalizing n with
  | nil => exact h2
  | cons a _ ih =>
    cases h2 with
    | cons b c => exact .cons (h a b) (ih c)

theorem SameList.trans {ps qs rs : List Prim} (h1 : SameList ps qs) (h2 : SameList qs rs) :
    SameList ps rs := forall₂_trans (R := SameButHypers) (fun a b => a.trans b) h1 h2

theorem each_setAndScore_same (ps : List Prim) (h : Dict String ℝ) (g : Rng) :
    SameList ps (Py.each (setAndScore h) (ps, g)).2.1 :=
  each_forall₂ SameButHypers.refl (fun p g => setAndScore_same p h g) ps g

theorem each_setHypers_same (ps : List Prim) (h : Dict String ℝ) (g : Rng) :
    SameList ps (Py.each (Py.onFst (Prim.setHypers h)) (ps, g)).2.1 :=
  each_forall₂ SameButHypers.refl (fun p _ => setHypers_same p h) ps g

/-- The total score at `h`. -/
noncomputable def total (ps : List Prim) (h : Dict String ℝ) : ℝ :=
  (ps.map fun p => (withHypers h p).score).sum

/-- All objects are well-formed and of class `k`. -/
def AllOf (k : Prim.Kind) (ps : List Prim) : Prop := ∀ p ∈ ps, p.Good ∧ p.kind = k

theorem AllOf.with {k : Prim.Kind} {ps : List Prim} (hp : AllOf k ps) (h : Dict String ℝ) :
    AllOf k (ps.map (withHypers h)) := by
  intro q hq
  obtain ⟨p, hp', rfl⟩ := List.mem_map.1 hq
  exact ⟨withHypers_good (hp p hp').1 h, (withHypers_kind h p).trans (hp p hp').2⟩

theorem sameList_with (ps : List Prim) (h : Dict String ℝ) :
    SameList ps (ps.map (withHypers h)) := by
  induction ps with
  | nil => exact .nil
  | cons p ps ih => exact .cons (setHypers_same p h) ih

theorem each_setAndScore_ok {k : Prim.Kind} {h : Dict String ℝ} (hk : HypersOk k h) :
    ∀ (ps : List Prim), AllOf k ps → ∀ g, Py.each (setAndScore h) (ps, g)
      = (.ok (ps.map fun p => Fl.fin (withHypers h p).score), (ps.map (withHypers h), g)) := by
  intro ps
  induction ps with
  | nil => intro _ g; rfl
  | cons p ps ih =>
    intro hp g
    obtain ⟨h1, h2⟩ := hp p List.mem_cons_self
    rw [Py.each_cons, setAndScore_ok h1 (by rw [h2]; exact hk)]
    dsimp only
    rw [ih (fun q hq => hp q (List.mem_cons_of_mem _ hq))]
    rfl

theorem each_setHypers_ok {k : Prim.Kind} {h : Dict String ℝ} (hk : HypersOk k h) :
    ∀ (ps : List Prim), (∀ p ∈ ps, p.kind = k) → ∀ g : Rng,
      Py.each (Py.onFst (Prim.setHypers h)) (ps, g)
      = (.ok (ps.map fun _ => ()), (ps.map (withHypers h), g)) := by
  intro ps
  induction ps with
  | nil => intro _ g; rfl
  | cons p ps ih =>
    intro hp g
    have h2 := hp p List.mem_cons_self
    rw [Py.each_cons]
    simp only [Py.onFst, setHypers_ok (p := p) (by rw [h2]; exact hk)]
    have := ih (fun q hq => hp q (List.mem_cons_of_mem _ hq)) g
    rw [this]
    rfl

theorem fl_sum_fin {α : Type} (l : List α) (f : α → ℝ) :
    Fl.sum (l.map fun x => Fl.fin (f x)) = .fin (l.map f).sum := by
  rw [Fl.sum_eq]
  induction l with
  | nil => rfl
  | cons a l ih => rw [List.map_cons, List.map_cons, List.sum_cons, List.sum_cons, ih]; rfl

theorem total_same {k : Prim.Kind} {ps qs : List Prim} (hs : SameList ps qs) (hp : AllOf k ps)
    {h : Dict String ℝ} (hk : HypersOk k h) : total qs h = total ps h := by
  unfold total
  induction hs with
  | nil => rfl
  | cons a _ ih =>
    have h1 := hp _ List.mem_cons_self
    rw [List.map_cons, List.map_cons, List.sum_cons, List.sum_cons,
      ih (fun q hq => hp q (List.mem_cons_of_mem _ hq)), withHypers_score a (by rw [h1.2]; exact hk)]

theorem total_jointScore {k : Prim.Kind} {h : Dict String ℝ} (hk : HypersOk k h) {ps : List Prim}
    (hp : AllOf k ps) : JointScore ps h (total ps h) := by
  refine ⟨ps.map fun p => (withHypers h p).score, ?_, rfl⟩
  induction ps with
  | nil => exact .nil
  | cons p ps ih =>
    have h1 := hp p List.mem_cons_self
    have hg := withHypers_good h1.1 h
    exact .cons ⟨_, setHypers_ok (by rw [h1.2]; exact hk), logpdfScore_eq hg.1 hg.2⟩
      (ih fun q hq => hp q (List.mem_cons_of_mem _ hq))

/-- Scoring a list of proposals: the scores do not depend on what was tried before. -/
theorem scores_ok {α : Type} {k : Prim.Kind} {ps : List Prim} (hp : AllOf k ps)
    (prop : α → Dict String ℝ) : ∀ (l : List α), (∀ a ∈ l, HypersOk k (prop a)) →
    ∀ qs, SameList ps qs → AllOf k qs → ∃ qs', SameList ps qs' ∧ AllOf k qs' ∧ ∀ g,
      Py.mapL (fun a => do
        let scores ← Py.each (setAndScore (prop a))
        pure (Fl.sum scores)) l (qs, g)
        = (.ok (l.map fun a => Fl.fin (total ps (prop a))), (qs', g)) := by
  intro l
  induction l with
  | nil => intro _ qs h1 h2; exact ⟨qs, h1, h2, fun g => rfl⟩
  | cons a l ih =>
    intro hl qs h1 h2
    have ha := hl a List.mem_cons_self
    obtain ⟨qs', s1, s2, s3⟩ := ih (fun b hb => hl b (List.mem_cons_of_mem _ hb))
      (qs.map (withHypers (prop a))) (h1.trans (sameList_with qs _)) (h2.with _)
    refine ⟨qs', s1, s2, fun g => ?_⟩
    have e : (do
        let scores ← Py.each (setAndScore (prop a))
        pure (Fl.sum scores) : Py (List Prim × Rng) Fl) (qs, g)
        = (.ok (.fin (total ps (prop a))), (qs.map (withHypers (prop a)), g)) := by
      rw [Py.bind_apply, each_setAndScore_ok ha qs h2 g]
      dsimp only
      rw [fl_sum_fin, ← total_same h1 hp ha]
      rfl
    unfold Py.mapL
    rw [Py.bind_apply, e]
    dsimp only
    rw [Py.bind_apply, s3 g]
    rfl

theorem scores_same {α : Type} (prop : α → Dict String ℝ) (l : List α) (ps : List Prim) (g : Rng) :
    SameList ps (Py.mapL (fun a => do
        let scores ← Py.each (setAndScore (prop a))
        pure (Fl.sum scores)) l (ps, g)).2.1 := by
  apply Py.mapL_invariant (P := fun st : List Prim × Rng => SameList ps st.1) _ l (ps, g)
    (SameList.refl ps)
  intro a st h
  rw [Py.bind_apply]
  have := each_setAndScore_same st.1 (prop a) st.2
  rcases e : Py.each (setAndScore (prop a)) st with ⟨_ | s, st'⟩ <;>
    (rw [show (st.1, st.2) = st from rfl, e] at this; exact h.trans this)


/-! ### Permutations -/

theorem permuteN_ok {α : Type} : ∀ (n : Nat) (l : List α), l.length = n + 1 → ∀ g,
    ∃ l' g', permuteN n l g = (.ok l', g') ∧ l'.Perm l := by
  intro n
  induction n with
  | zero => intro l _ g; exact ⟨l, g, rfl, .refl _⟩
  | succ n ih =>
    intro l hl g
    have hj : ⌊Int.fract (g 0).u * (n + 2 : ℝ)⌋.toNat < l.length := by
      have h0 := Int.fract_nonneg (g 0).u
      have h1 := Int.fract_lt_one (g 0).u
      have h2 : (0 : ℝ) < n + 2 := by positivity
      have h3 : ⌊Int.fract (g 0).u * (n + 2 : ℝ)⌋ < ((n + 2 : ℕ) : ℤ) := by
        rw [Int.floor_lt]; push_cast; nlinarith
      omega
    obtain ⟨l', g', e, p⟩ := ih (l.eraseIdx ⌊Int.fract (g 0).u * (n + 2 : ℝ)⌋.toNat)
      (by rw [List.length_eraseIdx_of_lt hj]; omega) (g.uniform).2
    refine ⟨l[⌊Int.fract (g 0).u * (n + 2 : ℝ)⌋.toNat] :: l', g', ?_,
      (p.cons _).trans (List.getElem_cons_eraseIdx_perm hj)⟩
    unfold permuteN
    have : l[⌊(g.uniform).1 * (n + 2 : ℝ)⌋.toNat]? = some l[⌊Int.fract (g 0).u * (n + 2 : ℝ)⌋.toNat] :=
      List.getElem?_eq_getElem hj
    dsimp only
    rw [this]
    dsimp only
    have e' : permuteN n (l.eraseIdx ⌊(g.uniform).1 * (n + 2 : ℝ)⌋.toNat) (g.uniform).2
      = (.ok l', g') := e
    rw [e']

theorem permutation_ok {α : Type} (l : List α) (g : Rng) :
    ∃ l' g', permutation l g = (.ok l', g') ∧ l'.Perm l := by
  unfold permutation
  cases l with
  | nil => exact ⟨[], g, rfl, .refl _⟩
  | cons a l => exact permuteN_ok _ _ (by simp) g

/-! ### Drawing an entry -/

open MeasureTheory in
theorem chance_finite (E : Nat → ℝ → Prop) (p : Nat → ENNReal) (s : Finset Nat)
    (hm : ∀ i ∈ s, MeasurableSet {u : ℝ | u ∈ Set.Ico (0 : ℝ) 1 ∧ E i u})
    (hd : ∀ u, ∀ i ∈ s, ∀ j ∈ s, E i u → E j u → i = j) (hp : ∀ i ∈ s, chance (E i) = p i) :
    chance (fun u => ∃ i ∈ s, E i u) = ∑ i ∈ s, p i := by
  unfold chance
  have : {u : ℝ | u ∈ Set.Ico (0 : ℝ) 1 ∧ ∃ i ∈ s, E i u}
      = ⋃ i ∈ s, {u : ℝ | u ∈ Set.Ico (0 : ℝ) 1 ∧ E i u} := by
    ext u
    simp only [Set.mem_ofPred_eq, Set.mem_iUnion, exists_prop]
    constructor
    · rintro ⟨a, i, b, c⟩; exact ⟨i, b, a, c⟩
    · rintro ⟨i, b, a, c⟩; exact ⟨a, i, b, c⟩
  rw [this, measure_biUnion_finset]
  · exact Finset.sum_congr rfl fun i hi => hp i hi
  · intro i hi j hj hij
    refine Set.disjoint_left.2 fun u h1 h2 => hij (hd u i hi j hj h1.2 h2.2)
  · exact hm


theorem measurable_pflipIdx (ps : List ℝ) (hp : ∀ p ∈ ps, 0 ≤ p) (hs : 0 < ps.sum) (rng : Rng)
    (i : Nat) (hi : i < ps.length) : MeasurableSet {u : ℝ | u ∈ Set.Ico (0 : ℝ) 1 ∧
      (pflipIdx ps (withUniform u rng)).1 = .ok i} := by
  match ps with
  | [] => simp at hi
  | [p] =>
    have : i = 0 := by simpa using hi
    subst this
    have : {u : ℝ | u ∈ Set.Ico (0 : ℝ) 1 ∧ (pflipIdx [p] (withUniform u rng)).1 = .ok 0}
        = Set.Ico 0 1 := by
      ext u; simp [pflipIdx]
    rw [this]; exact measurableSet_Ico
  | p :: q :: ps =>
    set l := p :: q :: ps with hl
    have : {u : ℝ | u ∈ Set.Ico (0 : ℝ) 1 ∧ (pflipIdx l (withUniform u rng)).1 = .ok i}
        = Set.Ico 0 1 ∩ Set.Ico ((l.take i).sum / l.sum) ((l.take (i + 1)).sum / l.sum) := by
      ext u
      simp only [Set.mem_ofPred_eq, Set.mem_inter_iff]
      refine and_congr_right fun hu => ?_
      have : (pflipIdx l (withUniform u rng)).1 = .ok (invCdf l (u * l.sum)) := by
        have hf : Int.fract u = u := Int.fract_eq_self.2 hu
        rw [hl]; simp only [pflipIdx]; rw [← hl, if_pos ⟨hp, hs⟩]
        simp [Rng.uniform, withUniform, hf]
      rw [this]
      have hu0 : 0 ≤ u * l.sum := mul_nonneg hu.1 hs.le
      have := invCdf_eq_iff l hp (u * l.sum) hu0 i hi
      rw [Set.mem_Ico, div_le_iff₀ hs, lt_div_iff₀ hs, ← this]
      simp
    rw [this]
    exact measurableSet_Ico.inter measurableSet_Ico

open Classical in
/-- The positions of `x` in the list. -/
noncomputable def positions {α : Type} (l : List α) (x : α) : Finset Nat :=
  (Finset.range l.length).filter (fun i => l[i]? = some x)

open Classical in
theorem mem_positions {α : Type} {l : List α} {x : α} {i : Nat} :
    i ∈ positions l x ↔ i < l.length ∧ l[i]? = some x := by
  unfold positions
  rw [Finset.mem_filter, Finset.mem_range]

open Classical in
theorem sum_positions {α : Type} (l : List α) (F : α → ℝ) (x : α) :
    ∑ i ∈ positions l x, (l.map F).getD i 0 = ((l.filter fun y => y = x).map F).sum := by
  unfold positions
  rw [Finset.sum_filter]
  induction l with
  | nil => rfl
  | cons a l ih =>
    rw [List.length_cons, Finset.sum_range_succ']
    simp only [List.getElem?_cons_succ, List.map_cons, List.getD_cons_succ]
    rw [ih]
    by_cases h : a = x
    · simp [h, List.filter_cons, add_comm]
    · simp [h, List.filter_cons]

/-- The chance that a log-weighted choice over the entries of a list lands on an entry with value
`x` is the share of `x`. -/
theorem chance_pick {α : Type} (l : List α) (hl : l ≠ []) (W : α → ℝ) (g : Rng) (x : α) :
    chance (fun u => ∃ i, (logPflipIdx (l.map fun a => Fl.fin (W a)) (withUniform u g)).1 = .ok i ∧
      l[i]? = some x) = ENNReal.ofReal (share l W x) := by
  classical
  set ws := (l.map fun a => Fl.fin (W a)) with hws
  have hexp : ws.map Fl.exp = l.map fun a => Real.exp (W a) := by
    rw [hws, List.map_map]; rfl
  have hlog : ∀ y ∈ ws, y.IsLogP := by
    intro y hy
    obtain ⟨a, _, rfl⟩ := List.mem_map.1 hy
    trivial
  have hpos : ∀ p ∈ l.map (fun a => Real.exp (W a)), 0 ≤ p := by
    intro p hp
    obtain ⟨a, _, rfl⟩ := List.mem_map.1 hp
    exact (Real.exp_pos _).le
  have hsum : 0 < (l.map fun a => Real.exp (W a)).sum := by
    obtain ⟨a, l', rfl⟩ := List.exists_cons_of_ne_nil hl
    rw [List.map_cons, List.sum_cons]
    have := Real.exp_pos (W a)
    have h2 : 0 ≤ (l'.map fun a => Real.exp (W a)).sum :=
      List.sum_nonneg fun p hp => hpos p (by rw [List.map_cons]; exact List.mem_cons_of_mem _ hp)
    linarith
  have h1 : chance (fun u => ∃ i, (logPflipIdx ws (withUniform u g)).1 = .ok i ∧ l[i]? = some x)
      = chance (fun u => ∃ i ∈ positions l x,
        (pflipIdx (l.map fun a => Real.exp (W a)) (withUniform u g)).1 = .ok i) := by
    apply chance_congr
    intro u _
    rw [logPflipIdx_eq ws hlog, hexp]
    constructor
    · rintro ⟨i, h1, h2⟩
      refine ⟨i, ?_, h1⟩
      exact mem_positions.2 ⟨(List.getElem?_eq_some_iff.1 h2).1, h2⟩
    · rintro ⟨i, h1, h2⟩
      exact ⟨i, h2, (mem_positions.1 h1).2⟩
  rw [h1, chance_finite _ (fun i => ENNReal.ofReal ((l.map fun a => Real.exp (W a)).getD i 0 /
    (l.map fun a => Real.exp (W a)).sum))]
  · rw [← ENNReal.ofReal_sum_of_nonneg]
    · congr 1
      rw [← Finset.sum_div]
      unfold share
      congr 1
      exact sum_positions l _ x
    · intro i hi
      refine div_nonneg ?_ hsum.le
      rw [mem_positions] at hi
      rw [List.getD_eq_getElem?_getD, List.getElem?_eq_getElem (by simpa using hi.1)]
      exact hpos _ (List.getElem_mem _)
  · intro i hi
    rw [mem_positions] at hi
    exact measurable_pflipIdx _ hpos hsum g i (by simpa using hi.1)
  · intro u i _ j _ h1 h2
    rw [h1] at h2
    cases h2; rfl
  · intro i hi
    rw [mem_positions] at hi
    exact chance_pflipIdx _ hpos hsum g i (by simpa using hi.1)

/-! ### transition_hypers -/

theorem logFlip_fin {α : Type} {l : List α} (hl : l ≠ []) (W : α → ℝ) (g : Rng) :
    ∃ i x g', logPflipIdx (l.map fun a => Fl.fin (W a)) g = (.ok i, g') ∧ l[i]? = some x := by
  have hexp : (l.map fun a => Fl.fin (W a)).map Fl.exp = l.map fun a => Real.exp (W a) := by
    rw [List.map_map]; rfl
  obtain ⟨i, g', e, hi, _⟩ := logPflipIdx_ok (l.map fun a => Fl.fin (W a)) (by simpa using hl)
    (by intro y hy; obtain ⟨a, _, rfl⟩ := List.mem_map.1 hy; trivial)
    (by
      rw [hexp]
      obtain ⟨a, l', rfl⟩ := List.exists_cons_of_ne_nil hl
      rw [List.map_cons, List.sum_cons]
      have := Real.exp_pos (W a)
      have h2 : 0 ≤ (l'.map fun a => Real.exp (W a)).sum :=
        List.sum_nonneg fun p hp => by
          obtain ⟨b, _, rfl⟩ := List.mem_map.1 hp; exact (Real.exp_pos _).le
      linarith) g
  have hi' : i < l.length := by simpa using hi
  exact ⟨i, l[i], g', e, List.getElem?_eq_getElem hi'⟩

/-- Only hyperparameters change in one step, whatever happens. -/
theorem transitionHyper_same (grids : Dict String (List ℝ)) (h : Dict String ℝ) (n : String)
    (ps : List Prim) (g : Rng) : SameList ps (transitionHyper grids h n (ps, g)).2.1 := by
  unfold transitionHyper
  rw [Py.lift_bind]
  cases Dict.getItem grids n with
  | error e => exact SameList.refl ps
  | ok grid =>
    dsimp only
    rw [Py.bind_apply]
    have := scores_same (fun v => Dict.set h n v) grid ps g
    rcases e : Py.mapL (fun gridValue => do
      let scores ← Py.each (setAndScore (Dict.set h n gridValue))
      pure (Fl.sum scores)) grid (ps, g) with ⟨_ | logps, st⟩ <;> rw [e] at this
    · exact this
    · dsimp only
      rw [Py.bind_apply]
      simp only [Py.onSnd]
      rcases logPflipIdx logps st.2 with ⟨_ | i, g'⟩
      · exact this
      · dsimp only
        rcases grid[i]? with _ | v
        · exact this
        · exact this

theorem transitionHyper_ok_cases {grids : Dict String (List ℝ)} {h : Dict String ℝ} {n : String}
    {ps : List Prim} {g : Rng} {h' : Dict String ℝ} {st : List Prim × Rng}
    (e : transitionHyper grids h n (ps, g) = (.ok h', st)) :
    ∃ grid v, Dict.get? grids n = some grid ∧ v ∈ grid ∧ h' = Dict.set h n v := by
  unfold transitionHyper at e
  rw [Py.lift_bind] at e
  cases hg : Dict.getItem grids n with
  | error e' => rw [hg] at e; cases e
  | ok grid =>
    rw [hg] at e
    have hg' : Dict.get? grids n = some grid := by
      rw [Dict.getItem_eq] at hg
      cases hq : Dict.get? grids n with
      | none => rw [hq] at hg; cases hg
      | some x => rw [hq] at hg; cases hg; rfl
    dsimp only at e
    rw [Py.bind_apply] at e
    rcases e1 : Py.mapL (fun gridValue => do
      let scores ← Py.each (setAndScore (Dict.set h n gridValue))
      pure (Fl.sum scores)) grid (ps, g) with ⟨_ | logps, st1⟩ <;> rw [e1] at e
    · cases e
    · dsimp only at e
      rw [Py.bind_apply] at e
      simp only [Py.onSnd] at e
      rcases e2 : logPflipIdx logps st1.2 with ⟨_ | i, g'⟩ <;> rw [e2] at e
      · cases e
      · dsimp only at e
        rcases e3 : grid[i]? with _ | v <;> rw [e3] at e
        · cases e
        · cases e
          exact ⟨grid, v, hg', List.mem_of_getElem? e3, rfl⟩

/-- One step with a legal grid: the drawn entry, in terms of the choice over the grid. -/
theorem transitionHyper_eval {k : Prim.Kind} {ps : List Prim} (hp : AllOf k ps)
    {grids : Dict String (List ℝ)} {h : Dict String ℝ} {n : String} {grid : List ℝ}
    (hg : Dict.get? grids n = some grid) (hk : ∀ v ∈ grid, HypersOk k (Dict.set h n v)) :
    ∃ ps', SameList ps ps' ∧ AllOf k ps' ∧ ∀ g, transitionHyper grids h n (ps, g) =
      match logPflipIdx (grid.map fun v => Fl.fin (total ps (Dict.set h n v))) g with
      | (.error e, g') => (.error e, (ps', g'))
      | (.ok i, g') => match grid[i]? with
        | none => (.error .indexError, (ps', g'))
        | some v => (.ok (Dict.set h n v), (ps', g')) := by
  obtain ⟨ps', s1, s2, s3⟩ := scores_ok hp (fun v => Dict.set h n v) grid hk ps (SameList.refl ps) hp
  refine ⟨ps', s1, s2, fun g => ?_⟩
  unfold transitionHyper
  rw [Py.lift_bind, Dict.getItem_ok hg]
  dsimp only
  rw [Py.bind_apply, s3 g]
  dsimp only
  rw [Py.bind_apply]
  simp only [Py.onSnd]
  rcases logPflipIdx (grid.map fun v => Fl.fin (total ps (Dict.set h n v))) g with ⟨_ | i, g'⟩
  · rfl
  · dsimp only
    rcases grid[i]? with _ | v <;> rfl

theorem transitionHyper_chance {k : Prim.Kind} {ps : List Prim} (hp : AllOf k ps)
    {grids : Dict String (List ℝ)} {h : Dict String ℝ} {n : String} {grid : List ℝ}
    (hg : Dict.get? grids n = some grid) (hne : grid ≠ [])
    (hk : ∀ v ∈ grid, HypersOk k (Dict.set h n v)) (g : Rng) (v : ℝ) :
    chance (fun u => (transitionHyper grids h n (ps, withUniform u g)).1 = .ok (Dict.set h n v))
      = ENNReal.ofReal (share grid (fun w => total ps (Dict.set h n w)) v) := by
  rw [← chance_pick grid hne _ g v]
  apply chance_congr
  intro u _
  obtain ⟨ps', _, _, s3⟩ := transitionHyper_eval hp hg hk
  rw [s3]
  rcases logPflipIdx (grid.map fun v => Fl.fin (total ps (Dict.set h n v))) (withUniform u g) with
    ⟨e | i, g'⟩
  · simp
  · dsimp only
    rcases e3 : grid[i]? with _ | w
    · simp [e3]
    · simp only [Except.ok.injEq, exists_eq_left', e3, Option.some.injEq]
      constructor
      · intro he
        have h1 := congrArg (fun d => Dict.get? d n) he
        simpa [Dict.get?_set] using h1
      · rintro rfl; rfl

theorem transitionHypersLoop_same (grids : Dict String (List ℝ)) :
    ∀ (ns : List String) (h : Dict String ℝ) (ps : List Prim) (g : Rng),
      SameList ps (transitionHypersLoop grids ns h (ps, g)).2.1 := by
  intro ns
  induction ns with
  | nil => intro h ps g; exact SameList.refl ps
  | cons n ns ih =>
    intro h ps g
    unfold transitionHypersLoop
    rw [Py.bind_apply]
    have := transitionHyper_same grids h n ps g
    rcases e : transitionHyper grids h n (ps, g) with ⟨_ | h', st⟩ <;> rw [e] at this
    · exact this
    · exact this.trans (ih h' st.1 st.2)

theorem transitionHypersLoop_cases {grids : Dict String (List ℝ)} :
    ∀ (ns : List String) {h : Dict String ℝ} {ps : List Prim} {g : Rng} {h' : Dict String ℝ}
      {st : List Prim × Rng}, transitionHypersLoop grids ns h (ps, g) = (.ok h', st) →
      ∀ n, (n ∈ ns → ∃ grid v, Dict.get? grids n = some grid ∧ v ∈ grid ∧
        Dict.get? h' n = some v) ∧ (n ∉ ns → Dict.get? h' n = Dict.get? h n) := by
  intro ns
  induction ns with
  | nil =>
    intro h ps g h' st e n
    cases e
    exact ⟨fun h => by simp at h, fun _ => rfl⟩
  | cons m ns ih =>
    intro h ps g h' st e n
    unfold transitionHypersLoop at e
    rw [Py.bind_apply] at e
    rcases e1 : transitionHyper grids h m (ps, g) with ⟨_ | h1, st1⟩ <;> rw [e1] at e
    · cases e
    dsimp only at e
    obtain ⟨grid, v, hg, hv, rfl⟩ := transitionHyper_ok_cases e1
    have := ih (ps := st1.1) (g := st1.2) e n
    constructor
    · intro hn
      by_cases hn' : n ∈ ns
      · exact this.1 hn'
      · have hmn : n = m := by simpa [hn'] using hn
        subst hmn
        refine ⟨grid, v, hg, hv, ?_⟩
        rw [this.2 hn', Dict.get?_set, if_pos rfl]
    · intro hn
      rw [List.mem_cons, not_or] at hn
      rw [this.2 hn.2, Dict.get?_set, if_neg (fun h => hn.1 h.symm)]

theorem hypersOk_set {k : Prim.Kind} {h : Dict String ℝ} (hk : HypersOk k h) {n : String} {v : ℝ}
    (hv : n ≠ "m" → 0 < v) : HypersOk k (Dict.set h n v) := by
  intro m hm
  obtain ⟨x, hx, hx'⟩ := hk m hm
  rw [Dict.get?_set]
  by_cases e : n = m
  · subst e; exact ⟨v, by simp, hv⟩
  · exact ⟨x, by simp [e, hx], hx'⟩

theorem transitionHypersLoop_ok {k : Prim.Kind} {grids : Dict String (List ℝ)} :
    ∀ (ns : List String), (∀ n ∈ ns, LegalGrid grids n) → ∀ {h : Dict String ℝ} {ps : List Prim},
      HypersOk k h → AllOf k ps → ∀ g, ∃ h' ps' g',
        transitionHypersLoop grids ns h (ps, g) = (.ok h', (ps', g')) ∧ HypersOk k h' ∧
        AllOf k ps' := by
  intro ns
  induction ns with
  | nil => intro _ h ps hk hp g; exact ⟨h, ps, g, rfl, hk, hp⟩
  | cons n ns ih =>
    intro hns h ps hk hp g
    obtain ⟨grid, hg, hne, hl⟩ := hns n List.mem_cons_self
    obtain ⟨ps', _, s2, s3⟩ := transitionHyper_eval (k := k) hp hg
      (fun v hv => hypersOk_set hk (hl v hv))
    obtain ⟨i, x, g', e, hi⟩ := logFlip_fin hne (fun v => total ps (Dict.set h n v)) g
    have e1 : transitionHyper grids h n (ps, g) = (.ok (Dict.set h n x), (ps', g')) := by
      rw [s3 g, e]; dsimp only; rw [hi]
    unfold transitionHypersLoop
    rw [Py.bind_apply, e1]
    exact ih (fun m hm => hns m (List.mem_cons_of_mem _ hm))
      (hypersOk_set hk (hl x (List.mem_of_getElem? hi))) s2 g'


/-! ### The whole transitions -/

theorem sameClass_of_allOf {k : Prim.Kind} {ps : List Prim} (hp : ∀ p ∈ ps, p.kind = k) :
    sameClass ps := by
  intro p hp'
  cases ps with
  | nil => simp at hp'
  | cons q ps =>
    rw [List.map_cons, List.headD_cons, hp p hp', hp q List.mem_cons_self]

theorem kind_of_sameClass {p : Prim} {ps : List Prim} (h : sameClass (p :: ps)) :
    ∀ q ∈ p :: ps, q.kind = p.kind := by
  intro q hq
  have := h q hq
  rwa [List.map_cons, List.headD_cons] at this

theorem each_setHypers_inv {h : Dict String ℝ} : ∀ {ps : List Prim} {g : Rng} {us : List Unit}
    {st : List Prim × Rng}, Py.each (Py.onFst (Prim.setHypers h)) (ps, g) = (.ok us, st) →
    (∀ p ∈ ps, HypersOk p.kind h) ∧ st = (ps.map (withHypers h), g) := by
  intro ps
  induction ps with
  | nil => intro g us st e; cases e; exact ⟨fun p hp => by simp at hp, rfl⟩
  | cons p ps ih =>
    intro g us st e
    rw [Py.each_cons] at e
    simp only [Py.onFst] at e
    have hok := (Props.C18_setHypers p h).1
    rcases e1 : p.setHypers h with ⟨_ | u, p'⟩ <;> rw [e1] at e hok
    · cases e
    have hk := hok.1 rfl
    have hp' : p' = withHypers h p := by rw [setHypers_ok hk] at e1; cases e1; rfl
    dsimp only at e
    rcases e2 : Py.each (Py.onFst (Prim.setHypers h)) (ps, g) with ⟨_ | us', st'⟩
    · rw [e2] at e; cases e
    · obtain ⟨i1, i2⟩ := ih e2
      rw [e2] at e
      subst i2
      cases e
      refine ⟨?_, by rw [hp']; rfl⟩
      intro q hq
      rcases List.mem_cons.1 hq with rfl | hq
      · exact hk
      · exact i1 q hq

theorem transitionHypers_same (grids : Dict String (List ℝ)) (ps : List Prim) (g : Rng) :
    SameList ps (transitionHypers grids (ps, g)).2.1 := by
  unfold transitionHypers
  rw [Py.get_bind]
  dsimp only
  by_cases hc : sameClass ps
  swap
  · rw [Py.assert_bind_neg hc]; exact SameList.refl ps
  · rw [Py.assert_bind_pos hc]
    · cases ps with
      | nil => exact SameList.refl []
      | cons p ps =>
        dsimp only
        rw [Py.bind_apply]
        simp only [Py.onSnd]
        obtain ⟨l', g', e, _⟩ := permutation_ok (Dict.keys p.getHypers) g
        rw [e]
        dsimp only
        rw [Py.bind_apply]
        have h1 := transitionHypersLoop_same grids l' p.getHypers (p :: ps) g'
        rcases e1 : transitionHypersLoop grids l' p.getHypers (p :: ps, g') with ⟨_ | h', st⟩ <;>
          rw [e1] at h1
        · exact h1
        · dsimp only
          rw [Py.bind_apply]
          have h2 := each_setHypers_same st.1 h' st.2
          rcases e2 : Py.each (Py.onFst (Prim.setHypers h')) st with ⟨_ | us, st'⟩ <;>
            rw [show (st.1, st.2) = st from rfl, e2] at h2
          · exact h1.trans h2
          · exact h1.trans h2


theorem transitionHypers_cases {grids : Dict String (List ℝ)} {ps : List Prim} {g : Rng}
    {h : Dict String ℝ} {st : List Prim × Rng} (e : transitionHypers grids (ps, g) = (.ok h, st)) :
    ∃ p ps', ps = p :: ps' ∧ (∀ q ∈ ps, q.kind = p.kind) ∧
      (∀ q ∈ st.1, q.kind = p.kind ∧ HasHypers q h) ∧
      (∀ n ∈ Dict.keys p.getHypers, ∃ grid v, Dict.get? grids n = some grid ∧ v ∈ grid ∧
        Dict.get? h n = some v) ∧ ∀ n ∉ Dict.keys p.getHypers, Dict.get? h n = none := by
  unfold transitionHypers at e
  rw [Py.get_bind] at e
  dsimp only at e
  by_cases hc : sameClass ps
  swap
  · rw [Py.assert_bind_neg hc] at e; cases e
  rw [Py.assert_bind_pos hc] at e
  cases ps with
  | nil => cases e
  | cons p ps =>
    dsimp only at e
    rw [Py.bind_apply] at e
    simp only [Py.onSnd] at e
    obtain ⟨l', g', e0, hperm⟩ := permutation_ok (Dict.keys p.getHypers) g
    rw [e0] at e
    dsimp only at e
    rw [Py.bind_apply] at e
    have h1 := transitionHypersLoop_same grids l' p.getHypers (p :: ps) g'
    rcases e1 : transitionHypersLoop grids l' p.getHypers (p :: ps, g') with ⟨_ | h', st1⟩ <;>
      rw [e1] at h1 e
    · cases e
    dsimp only at e
    rw [Py.bind_apply] at e
    rcases e2 : Py.each (Py.onFst (Prim.setHypers h')) st1 with ⟨_ | us, st2⟩ <;> rw [e2] at e
    · cases e
    cases e
    obtain ⟨i1, i2⟩ := each_setHypers_inv (ps := st1.1) (g := st1.2) e2
    have hkind := kind_of_sameClass hc
    have hkind1 : ∀ q ∈ st1.1, q.kind = p.kind := by
      intro q hq
      obtain ⟨q0, hq0, hs⟩ : ∃ q0 ∈ p :: ps, SameButHypers q0 q := by
        clear * - h1 hq
        have h1 : List.Forall₂ SameButHypers (p :: ps) st1.1 := h1
        generalize p :: ps = l at h1
        generalize st1.1 = m at h1 hq
        induction h1 with
        | nil => simp at hq
        | cons a _ ih =>
          rcases List.mem_cons.1 hq with rfl | hq
          · exact ⟨_, List.mem_cons_self, a⟩
          · obtain ⟨q0, h0, h1⟩ := ih hq
            exact ⟨q0, List.mem_cons_of_mem _ h0, h1⟩
      rw [hs.kind]; exact hkind q0 hq0
    refine ⟨p, ps, rfl, hkind, ?_, ?_, ?_⟩
    · intro q hq
      rw [i2] at hq
      obtain ⟨q1, hq1, rfl⟩ := List.mem_map.1 hq
      exact ⟨(withHypers_kind _ _).trans (hkind1 q1 hq1), withHypers_has (i1 q1 hq1)⟩
    · intro n hn
      exact (transitionHypersLoop_cases l' e1 n).1 (hperm.mem_iff.2 hn)
    · intro n hn
      rw [(transitionHypersLoop_cases l' e1 n).2 (fun h => hn (hperm.mem_iff.1 h))]
      exact (Dict.get?_eq_none_iff _ _).2 hn

theorem transitionHypers_ok {k : Prim.Kind} (hk : k ≠ .normalUC) {grids : Dict String (List ℝ)}
    {ps : List Prim} (hp : AllOf k ps) (hne : ps ≠ []) (hg : ∀ n ∈ hyperNames k, LegalGrid grids n)
    (g : Rng) : ∃ h ps' g', transitionHypers grids (ps, g) = (.ok h, (ps', g')) := by
  unfold transitionHypers
  rw [Py.get_bind]
  dsimp only
  rw [Py.assert_bind_pos (sameClass_of_allOf fun p h => (hp p h).2)]
  cases ps with
  | nil => exact absurd rfl hne
  | cons p ps =>
    dsimp only
    rw [Py.bind_apply]
    simp only [Py.onSnd]
    have hpk := hp p List.mem_cons_self
    obtain ⟨l', g', e0, hperm⟩ := permutation_ok (Dict.keys p.getHypers) g
    rw [e0]
    dsimp only
    rw [Py.bind_apply]
    obtain ⟨h', ps', g'', e1, k1, k2⟩ := transitionHypersLoop_ok (k := k) (grids := grids) l'
      (fun n hn => hg n (by
        have := (mem_keys_getHypers (by rw [hpk.2]; exact hk) n).1 (hperm.mem_iff.1 hn)
        rwa [hpk.2] at this))
      (by have := hypersOk_getHypers hpk.1.2 (by rw [hpk.2]; exact hk); rwa [hpk.2] at this) hp g'
    rw [e1]
    dsimp only
    rw [Py.bind_apply, each_setHypers_ok k1 ps' (fun q hq => (k2 q hq).2)]
    exact ⟨_, _, _, rfl⟩

/-! ### transition_hypers_full -/

theorem transitionHypersFull_same (grids : Dict String (List ℝ)) (ps : List Prim) (g : Rng) :
    SameList ps (transitionHypersFull grids (ps, g)).2.1 := by
  unfold transitionHypersFull
  rw [Py.get_bind]
  dsimp only
  by_cases hc : sameClass ps
  swap
  · rw [Py.assert_bind_neg hc]; exact SameList.refl ps
  rw [Py.assert_bind_pos hc, Py.bind_apply]
  have h1 := scores_same (fun d => d) (hyperCells grids) ps g
  rcases e1 : Py.mapL (fun proposal => do
    let scores ← Py.each (setAndScore proposal)
    pure (Fl.sum scores)) (hyperCells grids) (ps, g) with ⟨_ | logps, st⟩ <;> rw [e1] at h1
  · exact h1
  dsimp only
  rw [Py.bind_apply]
  simp only [Py.onSnd]
  rcases logPflipIdx logps st.2 with ⟨_ | i, g'⟩
  · exact h1
  dsimp only
  rcases (hyperCells grids)[i]? with _ | c
  · exact h1
  dsimp only
  rw [Py.bind_apply]
  have h2 := each_setHypers_same st.1 c g'
  rcases e2 : Py.each (Py.onFst (Prim.setHypers c)) (st.1, g') with ⟨_ | us, st'⟩ <;> rw [e2] at h2
  · exact h1.trans h2
  · exact h1.trans h2

theorem transitionHypersFull_eval {k : Prim.Kind} {ps : List Prim} (hp : AllOf k ps)
    {grids : Dict String (List ℝ)} (hk : ∀ c ∈ hyperCells grids, HypersOk k c) :
    ∃ ps', SameList ps ps' ∧ AllOf k ps' ∧ ∀ g, transitionHypersFull grids (ps, g) =
      match logPflipIdx ((hyperCells grids).map fun c => Fl.fin (total ps c)) g with
      | (.error e, g') => (.error e, (ps', g'))
      | (.ok i, g') => match (hyperCells grids)[i]? with
        | none => (.error .indexError, (ps', g'))
        | some c => (.ok (c, (hyperCells grids).map fun c => Fl.fin (total ps c)),
            (ps'.map (withHypers c), g')) := by
  obtain ⟨ps', s1, s2, s3⟩ := scores_ok hp (fun d => d) (hyperCells grids) hk ps (SameList.refl ps) hp
  refine ⟨ps', s1, s2, fun g => ?_⟩
  unfold transitionHypersFull
  rw [Py.get_bind]
  dsimp only
  rw [Py.assert_bind_pos (sameClass_of_allOf fun p h => (hp p h).2), Py.bind_apply, s3 g]
  dsimp only
  rw [Py.bind_apply]
  simp only [Py.onSnd]
  rcases logPflipIdx ((hyperCells grids).map fun c => Fl.fin (total ps c)) g with ⟨_ | i, g'⟩
  · rfl
  dsimp only
  rcases e : (hyperCells grids)[i]? with _ | c
  · rfl
  dsimp only
  rw [Py.bind_apply, each_setHypers_ok (hk c (List.mem_of_getElem? e)) ps' (fun q hq => (s2 q hq).2)]
  rfl

theorem transitionHypersFull_chance {k : Prim.Kind} {ps : List Prim} (hp : AllOf k ps)
    {grids : Dict String (List ℝ)} (hk : ∀ c ∈ hyperCells grids, HypersOk k c)
    (hne : hyperCells grids ≠ []) (g : Rng) (c : Dict String ℝ) :
    chance (fun u => ∃ logps, (transitionHypersFull grids (ps, withUniform u g)).1 = .ok (c, logps))
      = ENNReal.ofReal (share (hyperCells grids) (total ps) c) := by
  rw [← chance_pick (hyperCells grids) hne _ g c]
  apply chance_congr
  intro u _
  obtain ⟨ps', _, _, s3⟩ := transitionHypersFull_eval hp hk
  rw [s3]
  rcases logPflipIdx ((hyperCells grids).map fun c => Fl.fin (total ps c)) (withUniform u g) with
    ⟨e | i, g'⟩
  · simp
  · dsimp only
    rcases e3 : (hyperCells grids)[i]? with _ | w
    · simp [e3]
    · simp [e3]

theorem mem_hyperCells {grids : Dict String (List ℝ)} {c : Dict String ℝ} :
    c ∈ hyperCells grids ↔ List.Forall₂ (fun kg kv => kg.1 = kv.1 ∧ kv.2 ∈ kg.2) grids c := by
  induction grids generalizing c with
  | nil => simp [hyperCells]
  | cons kg grids ih =>
    obtain ⟨n, grid⟩ := kg
    simp only [hyperCells, List.mem_flatMap, List.mem_map]
    constructor
    · rintro ⟨v, hv, c', hc', rfl⟩
      exact .cons ⟨rfl, hv⟩ (ih.1 hc')
    · intro h
      cases h with
      | @cons _ kv _ c' h1 h2 =>
        obtain ⟨m, v⟩ := kv
        obtain ⟨rfl, hv⟩ := h1
        exact ⟨v, hv, c', ih.2 h2, rfl⟩


theorem transitionHypersFull_cases {grids : Dict String (List ℝ)} {ps : List Prim} {g : Rng}
    {c : Dict String ℝ} {logps : List Fl} {st : List Prim × Rng}
    (e : transitionHypersFull grids (ps, g) = (.ok (c, logps), st)) :
    c ∈ hyperCells grids ∧ ∀ q ∈ st.1, HasHypers q c := by
  unfold transitionHypersFull at e
  rw [Py.get_bind] at e
  dsimp only at e
  by_cases hc : sameClass ps
  swap
  · rw [Py.assert_bind_neg hc] at e; cases e
  rw [Py.assert_bind_pos hc, Py.bind_apply] at e
  rcases e1 : Py.mapL (fun proposal => do
    let scores ← Py.each (setAndScore proposal)
    pure (Fl.sum scores)) (hyperCells grids) (ps, g) with ⟨_ | logps, st1⟩ <;> rw [e1] at e
  · cases e
  dsimp only at e
  rw [Py.bind_apply] at e
  simp only [Py.onSnd] at e
  rcases e2 : logPflipIdx logps st1.2 with ⟨_ | i, g'⟩ <;> rw [e2] at e
  · cases e
  dsimp only at e
  rcases e3 : (hyperCells grids)[i]? with _ | c' <;> rw [e3] at e
  · cases e
  dsimp only at e
  rw [Py.bind_apply] at e
  rcases e4 : Py.each (Py.onFst (Prim.setHypers c')) (st1.1, g') with ⟨_ | us, st'⟩ <;> rw [e4] at e
  · cases e
  cases e
  obtain ⟨i1, i2⟩ := each_setHypers_inv e4
  refine ⟨List.mem_of_getElem? e3, fun q hq => ?_⟩
  rw [i2] at hq
  obtain ⟨q1, hq1, rfl⟩ := List.mem_map.1 hq
  exact withHypers_has (i1 q1 hq1)

/-! ### set_hypers -/

theorem updateHypers_eq (hypers : Dict String ℝ) (p : Prim) (g : Rng) :
    updateHypers hypers (p, g) =
      match p.setHypers (Dict.update p.getHypers hypers) with
      | (r, p') => (r, (p', g)) := rfl

theorem each_setHypersAll {hypers : Dict String ℝ} : ∀ {ps : List Prim} {g : Rng} {us : List Unit}
    {st : List Prim × Rng},
    Py.each (updateHypers hypers) (ps, g) = (.ok us, st) →
    List.Forall₂ (fun p q => HasHypers q (Dict.update p.getHypers hypers)) ps st.1 := by
  intro ps
  induction ps with
  | nil => intro g us st e; cases e; exact .nil
  | cons p ps ih =>
    intro g us st e
    rw [Py.each_cons, updateHypers_eq] at e
    have hok := (Props.C18_setHypers p (Dict.update p.getHypers hypers)).1
    rcases e1 : p.setHypers (Dict.update p.getHypers hypers) with ⟨_ | u, p'⟩ <;> rw [e1] at e hok
    · cases e
    have hk := hok.1 rfl
    have hp' : p' = withHypers (Dict.update p.getHypers hypers) p := by
      rw [setHypers_ok hk] at e1; cases e1; rfl
    dsimp only at e
    rcases e2 : Py.each (updateHypers hypers) (ps, g) with ⟨_ | us', st'⟩
    · rw [e2] at e; cases e
    · rw [e2] at e; cases e
      rw [hp']
      exact .cons (withHypers_has hk) (ih e2)

theorem setHypersAll_same (hypers : Dict String ℝ) (ps : List Prim) (g : Rng) :
    SameList ps (setHypersAll hypers (ps, g)).2.1 := by
  unfold setHypersAll
  rw [Py.get_bind]
  dsimp only
  by_cases hc : sameClass ps
  swap
  · rw [Py.assert_bind_neg hc]; exact SameList.refl ps
  rw [Py.assert_bind_pos hc, Py.bind_apply]
  have h := each_forall₂ (R := SameButHypers) (T := Rng) (α := Unit) SameButHypers.refl
    (m := updateHypers hypers)
    (fun p _ => setHypers_same p _) ps g
  rcases e2 : Py.each (updateHypers hypers) (ps, g) with ⟨_ | us', st'⟩ <;> rw [e2] at h
  · exact h
  · exact h

theorem setHypersAll_cases {hypers : Dict String ℝ} {ps : List Prim} {g : Rng}
    {st : List Prim × Rng} (e : setHypersAll hypers (ps, g) = (.ok (), st)) :
    List.Forall₂ (fun p q => HasHypers q (Dict.update p.getHypers hypers)) ps st.1 := by
  unfold setHypersAll at e
  rw [Py.get_bind] at e
  dsimp only at e
  by_cases hc : sameClass ps
  swap
  · rw [Py.assert_bind_neg hc] at e; cases e
  rw [Py.assert_bind_pos hc, Py.bind_apply] at e
  rcases e2 : Py.each (updateHypers hypers) (ps, g) with ⟨_ | us', st'⟩ <;> rw [e2] at e
  · cases e
  · cases e
    exact each_setHypersAll e2

/-- The grids a class builds for itself are legal. -/
theorem legalGrid_own (p : Prim) (hk : p.kind ≠ .normalUC) (X : List ℚ) {n : Nat} (hn : 1 ≤ n) :
    ∀ m ∈ hyperNames p.kind, LegalGrid (p.constructHyperGrids X n) m := by
  intro m hm
  obtain ⟨h1, h2, h3⟩ := Props.C19_grids p hk X hn
  have nd : (Dict.keys (p.constructHyperGrids X n)).Nodup := by
    show ((p.constructHyperGrids X n).map Prod.fst).Nodup
    rw [h1]; cases p <;> simp [hyperNames, Prim.kind]
  have hm' : m ∈ Dict.keys (p.constructHyperGrids X n) := by
    show m ∈ (p.constructHyperGrids X n).map Prod.fst
    rw [h1]; exact hm
  obtain ⟨grid, hg⟩ := Dict.exists_get?_of_mem_keys hm'
  refine ⟨grid, hg, h2 _ (Dict.mem_of_get? hg), fun v hv hmm => ?_⟩
  have hok := h3 ((p.constructHyperGrids X n).map fun kg =>
    (kg.1, if kg.1 = m then v else kg.2.headD 0)) (by
      intro kg hkg
      have hget : ∀ (d : Dict String (List ℝ)), (Dict.keys d).Nodup → kg ∈ d →
          Dict.get? (d.map fun kg => (kg.1, if kg.1 = m then v else kg.2.headD 0)) kg.1
            = some (if kg.1 = m then v else kg.2.headD 0) := by
        intro d nd hd
        apply Dict.get?_of_mem
        · have : Dict.keys (d.map fun kg => (kg.1, if kg.1 = m then v else kg.2.headD 0))
              = Dict.keys d := by simp [Dict.keys, List.map_map, Function.comp_def]
          rw [this]; exact nd
        · exact List.mem_map.2 ⟨kg, hd, rfl⟩
      rw [hget _ nd hkg]
      by_cases e : kg.1 = m
      · have : kg.2 = grid := by
          have := Dict.get?_of_mem nd (k := kg.1) (v := kg.2) hkg
          rw [e, hg] at this; cases this; rfl
        exact ⟨v, by rw [this]; exact hv, by rw [if_pos e]⟩
      · have hne := h2 kg hkg
        refine ⟨kg.2.headD 0, ?_, by rw [if_neg e]⟩
        cases hh : kg.2 with
        | nil => exact absurd hh hne
        | cons a l => simp)
  have hko := (Props.C18_setHypers p _).1.1 hok
  obtain ⟨x, hx, hpos⟩ := hko m hm
  have : x = v := by
    have hmem : (m, v) ∈ ((p.constructHyperGrids X n).map fun kg =>
        (kg.1, if kg.1 = m then v else kg.2.headD 0)) :=
      List.mem_map.2 ⟨(m, grid), Dict.mem_of_get? hg, by simp⟩
    have nd' : (Dict.keys ((p.constructHyperGrids X n).map fun kg =>
        (kg.1, if kg.1 = m then v else kg.2.headD 0))).Nodup := by
      have : Dict.keys ((p.constructHyperGrids X n).map fun kg =>
          (kg.1, if kg.1 = m then v else kg.2.headD 0)) = Dict.keys (p.constructHyperGrids X n) := by
        simp [Dict.keys, List.map_map, Function.comp_def]
      rw [this]; exact nd
    rw [Dict.get?_of_mem nd' hmem] at hx
    cases hx; rfl
  rw [← this]; exact hpos hmm

theorem allOf_of_reachable {k : Prim.Kind} {ps : List Prim}
    (h : ∀ p ∈ ps, LegallyReachable p ∧ p.kind = k) : AllOf k ps :=
  fun p hp => ⟨⟨(h p hp).1.inv, (h p hp).1.legal⟩, (h p hp).2⟩

end Cgpm2
