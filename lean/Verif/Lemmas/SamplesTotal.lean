import Verif.Lemmas.Samples
import Verif.Lemmas.TowerDensity

/-!
# `simulate` answers (helpers for C34 and C70)
-/

namespace Cgpm2
open Spec

variable {S : Type}

/-- What can be asked of `simulate`: distinct outputs as targets, given other outputs. -/
structure SimAsk (outs : List Var) (OK : Var → Val → Prop) (t : List Var) (cs : Dict Var Val) : Prop where
  ne : t ≠ []
  nodup : (t ++ Dict.keys cs).Nodup
  out : ∀ v ∈ t, v ∈ outs
  query : IsQuery outs OK [] cs

/-! ## Primitives -/

theorem simulateMany_ok {one : Py Rng (Dict Var Val)} (h : ∀ g, ∃ s, (one g).1 = .ok s)
    (N : Option Nat) (g : Rng) : ∃ out, (simulateMany one N g).1 = .ok out := by
  rcases N with _ | n
  · obtain ⟨s, hs⟩ := h g
    refine ⟨.one s, ?_⟩
    rw [simulateMany_none]
    rcases ho : one g with ⟨_ | s', g'⟩ <;> rw [ho] at hs <;> cases hs
    rfl
  · have : ∀ n g, ∃ l, (simulateMany.go one n g).1 = .ok l := by
      intro n
      induction n with
      | zero => exact fun g => ⟨[], rfl⟩
      | succ n ih =>
        intro g
        obtain ⟨s, hs⟩ := h g
        unfold simulateMany.go
        rw [Py.bind_apply]
        rcases ho : one g with ⟨_ | s', g'⟩ <;> rw [ho] at hs <;> cases hs
        obtain ⟨l, hl⟩ := ih g'
        dsimp only
        rw [Py.bind_apply]
        rcases hl' : simulateMany.go one n g' with ⟨_ | l', g''⟩ <;> rw [hl'] at hl <;> cases hl
        exact ⟨_, rfl⟩
    obtain ⟨l, hl⟩ := this n g
    refine ⟨.many l, ?_⟩
    unfold simulateMany
    dsimp only
    rw [Py.bind_apply]
    rcases hl' : simulateMany.go one n g with ⟨_ | l', g''⟩ <;> rw [hl'] at hl <;> cases hl
    rfl

theorem prim_simulates {p : Prim} (h : p.Good) {o : Var} (ho : p.outputs = [o]) {r : RowId}
    (hr : r ∉ Dict.keys p.data) (N : Option Nat) (g : Rng) :
    ∃ out, (p.simulate r [o] [] [] N g).1 = .ok out := by
  obtain ⟨hI, hL⟩ := h
  have hn : ∀ {V : Type} {d : Dict RowId V}, r ∉ Dict.keys d → Dict.get? d r = none := fun h =>
    (Dict.get?_eq_none_iff _ _).2 h
  cases p with
  | crp c =>
    have hr' : r ∉ Dict.keys c.data := by simpa [Prim.data, Dict.keys] using hr
    refine simulateMany_ok (fun g => ?_) N g
    obtain ⟨t, g', h, -⟩ := Crp.simulate1_ok (c := c) hI hL ho hr' g
    exact ⟨_, congrArg Prod.fst h⟩
  | categorical c =>
    refine simulateMany_ok (fun g => ?_) N g
    obtain ⟨t, g', h, -⟩ := Categorical.simulate1_ok (c := c) hI hL ho
      (fun q => by rw [hn (d := c.data) hr]; simp) g
    exact ⟨_, congrArg Prod.fst h⟩
  | bernoulli c =>
    refine simulateMany_ok (fun g => ?_) N g
    rw [Bernoulli.simulate1_free (c := c) hI hL ho (fun q => by rw [hn (d := c.data) hr]; simp)]
    obtain ⟨i, g', h, -⟩ := logPflipIdx_ok c.logWeights (by simp [Bernoulli.logWeights])
      (Bernoulli.logWeights_isLogP c) (by rw [Bernoulli.logWeights_sum hL]; norm_num) g
    rw [h]
    exact ⟨_, rfl⟩
  | normal c =>
    refine simulateMany_ok (fun g => ?_) N g
    have ho : c.outputs = [o] := ho
    refine ⟨[(o, .num (Rng.draw (Rng.draw (Rng.draw g).2).2).1)], ?_⟩
    unfold Normal.simulate1
    rw [ho, Py.lift_bind, simulateGuard_ok, hn (d := c.data) hr]
    rfl
  | normalUC c =>
    have ho : c.outputs = [o] := ho
    obtain ⟨out, h⟩ := simulateMany_ok (one := fun rng =>
      (.ok [(o, .num (Rng.draw rng).1)], (Rng.draw rng).2)) (fun g => ⟨_, rfl⟩) N g
    refine ⟨out, ?_⟩
    rw [← h]
    show (NormalUC.simulate c r [o] [] [] N g).1 = _
    unfold NormalUC.simulate
    rw [ho, Py.lift_bind, simulateGuard_ok, hn (d := c.data) hr]
    rfl
  | poisson c =>
    refine simulateMany_ok (fun g => ?_) N g
    have ho : c.outputs = [o] := ho
    refine ⟨[(o, .num ((⌊(Rng.draw g).1⌋.toNat : Nat) : ℚ))], ?_⟩
    unfold Poisson.simulate1
    rw [ho, Py.lift_bind, simulateGuard_ok, hn (d := c.data) hr]
    rfl

/-! ## Products -/

theorem Py.each_succeeds {T α : Type} {m : Py (S × T) α} {l : List S}
    (h : ∀ c ∈ l, ∀ g, ∃ a, (m (c, g)).1 = .ok a) : ∀ g, ∃ as, (Py.each m (l, g)).1 = .ok as := by
  induction l with
  | nil => exact fun g => ⟨[], rfl⟩
  | cons c l ih =>
    intro g
    rw [Py.each_cons]
    obtain ⟨a, ha⟩ := h c (by simp) g
    rcases hm : m (c, g) with ⟨_ | a', s1, g1⟩ <;> rw [hm] at ha <;> cases ha
    dsimp only
    obtain ⟨as, has⟩ := ih (fun c hc => h c (by simp [hc])) g1
    rcases hm' : Py.each m (l, g1) with ⟨_ | a', s1, g1⟩ <;> rw [hm'] at has <;> cases has
    exact ⟨_, rfl⟩

theorem mergeSamples_ok {N : Option Nat} {outs : List SimOut} (hne : outs ≠ [])
    (h : ∀ o ∈ outs, WellFormed N o) : ∃ out, mergeSamples outs = .ok out := by
  rcases N with _ | n
  · rcases outs with _ | ⟨o, outs⟩
    · exact absurd rfl hne
    rcases o with d | l
    · have : ∀ l : List SimOut, (∀ o ∈ l, WellFormed none o) → ∃ ds : List (Dict Var Val),
          (l.mapM fun s => match s with
            | .one d => Except.ok d
            | .many _ => Except.error Err.typeError) = .ok ds := by
        intro l
        induction l with
        | nil => exact fun _ => ⟨[], rfl⟩
        | cons o l ih =>
          intro h
          rcases o with d | l'
          · obtain ⟨ds, hds⟩ := ih fun o ho => h o (by simp [ho])
            refine ⟨d :: ds, ?_⟩
            rw [List.mapM_cons, hds]
            rfl
          · exact False.elim (h _ List.mem_cons_self)
      obtain ⟨ds, hds⟩ := this outs fun o ho => h o (by simp [ho])
      have key : ∀ f : SimOut → Except Err (Dict Var Val), outs.mapM f = .ok ds →
          (outs.mapM f >>= fun ds => Except.ok (SimOut.one (mergedl (d :: ds)))) =
            .ok (.one (mergedl (d :: ds))) := by
        intro f hf
        rw [hf]; rfl
      exact ⟨_, key _ hds⟩
    · exact False.elim (h _ List.mem_cons_self)
  · rcases outs with _ | ⟨o, outs⟩
    · exact absurd rfl hne
    rcases o with d | l
    · exact False.elim (h _ List.mem_cons_self)
    · have : ∀ l : List SimOut, (∀ o ∈ l, WellFormed (some n) o) →
          ∃ ls, mergeSamplesMany l = .ok ls := by
        intro l
        induction l with
        | nil => exact fun _ => ⟨[], rfl⟩
        | cons o l ih =>
          intro h
          rcases o with d | l'
          · exact False.elim (h _ List.mem_cons_self)
          · obtain ⟨ds, hds⟩ := ih fun o ho => h o (by simp [ho])
            refine ⟨l' :: ds, ?_⟩
            unfold mergeSamplesMany
            rw [hds]
            rfl
      obtain ⟨ls, hls⟩ := this (.many l :: outs) h
      refine ⟨.many ((zipStar ls).map mergedl), ?_⟩
      unfold mergeSamples
      dsimp only
      rw [hls]
      rfl

theorem product_simulates {I : Iface S} {T : Tab S} {P : S → Prop} (hS : SimLaw I T P) {p : Product S}
    (hne : p.cgpms ≠ []) {r : RowId} (hreg : ∀ c ∈ p.cgpms, T.Reg c ∧ T.Fresh c r) {t : List Var}
    {cs : Dict Var Val} {N : Option Nat} (hN : N ≠ some 0)
    (h : ∀ c ∈ p.cgpms, onlyVars (I.outputs c) t ≠ [] → ∀ g, ∃ out, (I.simulate r
      (onlyVars (I.outputs c) t) (only (I.outputs c) cs) [] N (c, g)).1 = .ok out) (g : Rng) :
    ∃ out, ((productI I).simulate r t cs [] N (p, g)).1 = .ok out := by
  have hone : ∀ c g, (simulateOne I r t cs [] N (c, g)).1 =
      ((if onlyVars (I.outputs c) t = [] then (Pure.pure (noValues N) : Py (S × Rng) SimOut)
      else I.simulate r (onlyVars (I.outputs c) t) (only (I.outputs c) cs) (only (I.inputs c) []) N)
      (c, g)).1 := by
    intro c g
    unfold simulateOne
    rw [Py.get_bind]
    dsimp only
    rcases N with _ | n <;> rfl
  have hok : ∀ c ∈ p.cgpms, ∀ g, ∃ a, (simulateOne I r t cs [] N (c, g)).1 = .ok a := by
    intro c hc g
    rw [hone]
    split
    · exact ⟨_, rfl⟩
    · next hT => exact h c hc hT g
  obtain ⟨outs, houts⟩ := Py.each_succeeds hok g
  have hw := Py.each_post (P := fun c => T.Reg c ∧ T.Fresh c r)
    (Q := fun c o => ExactSamples N (onlyVars (I.outputs c) t) o) (by
      intro c g a hc ha
      rw [hone] at ha
      split at ha
      · next hT =>
        cases ha
        rw [hT]
        exact exact_noValues N
      · exact hS c r _ _ N g a hc.1 (.inl hc.2) (fun v hv => (mem_onlyVars.1 hv).2) hN ha)
    p.cgpms g outs hreg houts
  obtain ⟨out, hout⟩ := mergeSamples_ok (N := N) (outs := outs)
    (by rintro rfl; exact hne (List.forall₂_nil_right_iff.1 hw))
    (fun o ho => by
      obtain ⟨c, hq⟩ := forall₂_exists hw ho
      exact hq.1)
  refine ⟨out, ?_⟩
  show ((Product.each (simulateOne I r t cs [] N) >>= fun samples => Py.lift (mergeSamples samples))
    (p, g)).1 = _
  rw [Py.bind_apply]
  have h1 : (Product.each (simulateOne I r t cs [] N) (p, g)).1 = .ok outs := houts
  rcases hx : Product.each (simulateOne I r t cs [] N) (p, g) with ⟨_ | o, st⟩ <;> rw [hx] at h1 <;>
    cases h1
  dsimp only
  rw [Py.lift_apply, hout]

/-! ## Mixtures -/

section
variable {A : Type} {AI : Iface A} {I : Iface S} {MA : Sem A} {M : Sem S} {R : Arr A S}
  {m : RowMix A} {r : RowId} {supp : List Int} {w : Int → ℝ} {C : Int → S} {OK : Var → Val → Prop}

/-- The last steps of `simulate`: the samples of every cluster drawn. -/
def RowMix.shares (AI : Iface A) (r : RowId) (t : List Var) (cs i : Dict Var Val) (N : Option Nat)
    (zs : List Int) : Py (RowMix A × Rng) SimOut := do
  let counts ← Py.lift (bincount zs)
  let samples ← Py.mapL
    (fun zn : Int × Nat => RowMix.simulateOne AI r t cs i (some zn.2) (.num zn.1)) counts
  let all ← Py.lift (RowMix.chainSamples samples)
  match N with
  | none =>
    match all with
    | [] => Py.throw .indexError
    | s :: _ => pure (.one s)
  | some _ => pure (.many all)

/-- The number of clusters drawn. -/
def drawn : Option Nat → Nat
  | none => 1
  | some n => if n = 0 then 1 else n

theorem RowMix.simulateFresh_val (LA : Laws AI MA) (hm : RowMix.E0 MA m m)
    (hs : m.rowDivide.support = .ok supp) {t : List Var} {cs i : Dict Var Val} {N : Option Nat} {g : Rng}
    {ws : List Fl} (hw : (supp.mapM fun z : Int =>
      (RowMix.logpdf AI r [(m.indexer, .num z)] cs i (m, g)).1) = .ok ws) :
    (RowMix.simulateFresh AI r t cs i N (m, g)).1 =
      ((Py.onSnd (logPflipMany ws (drawn N)) >>= fun is => RowMix.shares AI r t cs i N
        (is.map fun i : Nat => supp.getD i 0)) (m, g)).1 := by
  have hrel : ∀ zs, Py.Rel (RowMix.E0 MA) (RowMix.shares AI r t cs i N zs)
      (RowMix.shares AI r t cs i N zs) := by
    intro zs
    refine (Py.Rel.lift _).bind fun _ =>
      (Py.Rel.mapL (fun _ => RowMix.rel_simulateOne LA _ _ _ _ _ _) _).bind fun _ =>
      (Py.Rel.lift _).bind fun _ => ?_
    split
    · split
      · exact Py.Rel.throw _
      · exact Py.Rel.pure _
    · exact Py.Rel.pure _
  have h1 : RowMix.simulateFresh AI r t cs i N (m, g) = (Py.mapL (fun z : Int =>
      RowMix.logpdf AI r [(m.indexer, .num (z : ℚ))] cs i) supp >>= fun ws =>
      Py.onSnd (logPflipMany ws (drawn N)) >>= fun is => RowMix.shares AI r t cs i N
        (is.map fun i : Nat => supp.getD i 0)) (m, g) := by
    unfold RowMix.simulateFresh
    rw [Py.get_bind]
    dsimp only
    rw [Py.lift_bind, hs]
    rcases N with _ | n <;> rfl
  rw [h1, Py.val_bind (E := RowMix.E0 MA) (Py.NoDraw.mapL (fun _ => RowMix.noDraw_logpdf LA _ _ _ _) _)
    (RowMix.keeps_mapL LA (fun _ => RowMix.keeps_logpdf LA _ _ _ _) _)
    (fun _ => (Py.Rel.onSnd _).bind fun _ => hrel _) hm,
    Py.val_mapL (fun _ => RowMix.noDraw_logpdf LA _ _ _ _) (fun _ => RowMix.keeps_logpdf LA _ _ _ _)
    (fun _ => RowMix.rel_logpdf LA _ _ _ _) hm, hw]
  rfl

/-- Samples from one cluster. -/
theorem mixSimulateOne_ok (LR : ArrLaws AI I MA M R) {k : Val}
    (hi : MA.Inv m.array) (hx : R.x m.array = m.indexer) {c : S} (hc : R.get m.array k = some c)
    {g : Rng} {t : List Var} {cs : Dict Var Val} {N : Option Nat}
    (hE : onlyVars (AI.outputs m.array) t ≠ [] → ∃ out, (I.simulate r
      (onlyVars (AI.outputs m.array) t) (only (AI.outputs m.array) cs) [] N (c, g)).1 = .ok out ∧
      WellFormed N out) :
    ∃ out, (RowMix.simulateOne AI r t cs [] N k (m, g)).1 = .ok out := by
  have htail : ∀ (st : RowMix A × Rng) (out0 : SimOut), WellFormed N out0 →
      ∃ out, ((if m.indexer ∈ t then
      match N, out0 with
      | none, .one s => (Pure.pure (SimOut.one (Dict.set s m.indexer k)) : Py (RowMix A × Rng) SimOut)
      | some _, .many l => Pure.pure (.many (l.map fun s => Dict.set s m.indexer k))
      | none, .many _ => Py.throw .typeError
      | some _, .one _ => Py.throw .typeError
    else Pure.pure out0) st).1 = .ok out := by
    intro st out0 hw
    split
    · rcases N with _ | n <;> rcases out0 with s | l
      · exact ⟨_, rfl⟩
      · exact False.elim hw
      · exact False.elim hw
      · exact ⟨_, rfl⟩
    · exact ⟨_, rfl⟩
  unfold RowMix.simulateOne
  rw [Py.get_bind]
  dsimp only
  by_cases hT : onlyVars (AI.outputs m.array) t = []
  · rw [if_neg (not_not.2 (show getIntersectionL (m.outputsX AI) t = [] from hT))]
    rcases N with _ | n
    · exact htail (m, g) (noValues none) (exact_noValues none).1
    · exact htail (m, g) (noValues (some n)) (exact_noValues (some n)).1
  · rw [if_pos (show ¬ getIntersectionL (m.outputsX AI) t = [] from hT)]
    rw [show merged (getIntersection (m.outputsX AI) []) [(m.indexer, k)] = [(R.x m.array, k)] by
      rw [hx]; rfl]
    obtain ⟨out0, h1, h2⟩ := hE hT
    rw [Py.bind_apply, onArray_eq, LR.simulate _ _ _ _ _ _ _ _ hi hc]
    rcases hs : I.simulate r (onlyVars (AI.outputs m.array) t) (only (AI.outputs m.array) cs) [] N
      (c, g) with ⟨_ | o, st⟩ <;> rw [hs] at h1 <;> cases h1
    have hs' : I.simulate r (getIntersectionL (m.outputsX AI) t) (getIntersection (m.outputsX AI) cs) [] N
      (c, g) = (.ok out0, st) := hs
    rw [hs']
    exact htail _ _ h2

theorem Py.mapL_succeeds {T α β : Type} {f : α → Py T β} {P : T → Prop} :
    ∀ {l : List α}, (∀ a ∈ l, ∀ s, P s → P (f a s).2) → (∀ a ∈ l, ∀ s, P s → ∃ b, (f a s).1 = .ok b) →
    ∀ s, P s → ∃ bs, (Py.mapL f l s).1 = .ok bs := by
  intro l
  induction l with
  | nil => exact fun _ _ _ _ => ⟨[], rfl⟩
  | cons a l ih =>
    intro h1 h2 s hs
    obtain ⟨b, hb⟩ := h2 a (by simp) s hs
    have hp := h1 a (by simp) s hs
    rcases hf : f a s with ⟨_ | b', s'⟩ <;> rw [hf] at hb hp <;> cases hb
    obtain ⟨bs, hbs⟩ := ih (fun a ha => h1 a (by simp [ha])) (fun a ha => h2 a (by simp [ha])) s' hp
    refine ⟨b :: bs, ?_⟩
    show ((f a >>= fun b => Py.mapL f l >>= fun bs => (Pure.pure (b :: bs) : Py T (List β))) s).1 = _
    rw [Py.bind_apply, hf]
    dsimp only
    rw [Py.bind_apply]
    rcases hf' : Py.mapL f l s' with ⟨_ | b', s''⟩ <;> rw [hf'] at hbs <;> cases hbs
    rfl

theorem bincount_nonneg {zs : List Int} (h : ∀ z ∈ zs, 0 ≤ z) : ∃ l, bincount zs = .ok l := by
  unfold bincount
  rw [if_neg]
  · exact ⟨_, rfl⟩
  · rw [Bool.not_eq_true, List.any_eq_false]
    intro z hz
    simpa using h z hz

theorem chainSamples_ok {outs : List SimOut} (h : ∀ o ∈ outs, ∃ n, WellFormed (some n) o) :
    ∃ l, RowMix.chainSamples outs = .ok l := by
  induction outs with
  | nil => exact ⟨[], rfl⟩
  | cons o outs ih =>
    obtain ⟨l, hl⟩ := ih fun o ho => h o (by simp [ho])
    obtain ⟨n, hn⟩ := h o (by simp)
    rcases o with d | l'
    · exact False.elim hn
    · refine ⟨l' ++ l, ?_⟩
      unfold RowMix.chainSamples
      rw [hl]
      rfl

/-- The clusters drawn yield samples, if every one of them does. -/
theorem shares_ok (LA : Laws AI MA) (hm : RowMix.E0 MA m m) {t : List Var} {cs : Dict Var Val}
    {N : Option Nat} {zs : List Int} (hne : zs ≠ []) (h0 : ∀ z ∈ zs, 0 ≤ z)
    {Q : Int → Dict Var Val → Prop}
    (h : ∀ z ∈ zs, ∀ n ≠ 0, ∀ g, ∃ out, (RowMix.simulateOne AI r t cs [] (some n) (.num (z : ℚ)) (m, g)).1 =
      .ok out ∧ ExactSamples (some n) t out ∧ ∀ s ∈ samplesOf out, Q z s) (g : Rng) :
    ∃ out, (RowMix.shares AI r t cs [] N zs (m, g)).1 = .ok out ∧ WellFormed N out ∧
      ∀ s ∈ samplesOf out, ∃ z ∈ zs, Q z s := by
  obtain ⟨counts, hb⟩ := bincount_nonneg h0
  obtain ⟨b1, b2, b3⟩ := bincount_ok hb
  have hone : ∀ zn ∈ counts, ∀ st : RowMix A × Rng, RowMix.E0 MA m st.1 → ∃ out,
      (RowMix.simulateOne AI r t cs [] (some zn.2) (.num (zn.1 : ℚ)) st).1 = .ok out ∧
      ExactSamples (some zn.2) t out ∧ ∀ s ∈ samplesOf out, Q zn.1 s := by
    intro zn hzn st hst
    obtain ⟨out, ho, he⟩ := h zn.1 (b2 zn hzn).2 zn.2 (b2 zn hzn).1 st.2
    refine ⟨out, ?_, he⟩
    rw [← ho]
    exact (RowMix.rel_simulateOne LA _ _ _ _ _ _ _ _ _ hst).1.symm
  have hkeep : ∀ zn ∈ counts, ∀ st : RowMix A × Rng, RowMix.E0 MA m st.1 → RowMix.E0 MA m
      (RowMix.simulateOne AI r t cs [] (some zn.2) (.num (zn.1 : ℚ)) st).2.1 := fun zn _ st hst =>
    hst.trans LA (RowMix.keeps_simulateOne LA _ _ _ _ _ _ st.1 st.2 (hst.right LA))
  obtain ⟨outs, houts⟩ := Py.mapL_succeeds (P := fun st : RowMix A × Rng => RowMix.E0 MA m st.1) hkeep
    (fun zn hzn st hst => (hone zn hzn st hst).imp fun _ => And.left) (m, g) hm
  have hq : List.Forall₂ (fun (zn : Int × Nat) o => zn ∈ counts → ExactSamples (some zn.2) t o ∧
      ∀ s ∈ samplesOf o, Q zn.1 s) counts outs := by
    refine Py.mapL_post (P := fun st : RowMix A × Rng => RowMix.E0 MA m st.1) ?_ ?_ counts (m, g) outs hm houts
    · intro zn st hst
      exact hst.trans LA (RowMix.keeps_simulateOne LA _ _ _ _ _ _ st.1 st.2 (hst.right LA))
    · intro zn st o hst ho hzn
      obtain ⟨out, h1, h2⟩ := hone zn hzn st hst
      rw [h1] at ho
      cases ho
      exact h2
  have hq := forall₂_drop_mem hq
  obtain ⟨all, hall⟩ := chainSamples_ok (outs := outs) fun o ho => by
    obtain ⟨zn, hz⟩ := forall₂_exists hq ho
    exact ⟨_, hz.1.1⟩
  have hl : all.length = zs.length := by
    rw [chainSamples_eq hall, forall₂_flatMap_length (n := Prod.snd) (hq.imp fun zn o hq => hq.1.2.1), b1]
  have hQ : ∀ s ∈ all, ∃ z ∈ zs, Q z s := by
    intro s hs
    rw [chainSamples_eq hall] at hs
    obtain ⟨o, ho, hs⟩ := List.mem_flatMap.1 hs
    obtain ⟨zn, hzn, hz⟩ := forall₂_exists_mem hq ho
    exact ⟨zn.1, (b2 zn hzn).2, hz.2 s hs⟩
  unfold RowMix.shares
  rw [Py.lift_bind, hb]
  dsimp only
  rw [Py.bind_apply]
  rcases hx : Py.mapL (fun zn : Int × Nat =>
    RowMix.simulateOne AI r t cs [] (some zn.2) (.num (zn.1 : ℚ))) counts (m, g) with ⟨_ | os, st⟩ <;>
    rw [hx] at houts <;> cases houts
  dsimp only
  rw [Py.lift_bind, hall]
  dsimp only
  rcases N with _ | n
  · rcases all with _ | ⟨s, all⟩
    · exact absurd (List.length_eq_zero_iff.1 hl.symm) hne
    · exact ⟨_, rfl, trivial, fun s' hs' => by
        rw [show s' = s from List.mem_singleton.1 hs']; exact hQ s (by simp)⟩
  · exact ⟨_, rfl, trivial, hQ⟩

theorem logPflipMany_ok {l : List Fl} (hne : l ≠ []) (h : ∀ x ∈ l, x.IsLogP)
    (hs : 0 < (l.map Fl.exp).sum) : ∀ (n : Nat) (g : Rng), ∃ is g', logPflipMany l n g = (.ok is, g') ∧
      is.length = n ∧ ∀ i ∈ is, i < l.length ∧ 0 < (l.map Fl.exp).getD i 0
  | 0, g => ⟨[], g, rfl, rfl, by simp⟩
  | n + 1, g => by
    obtain ⟨i, g1, h1, h2, h3⟩ := logPflipIdx_ok l hne h hs g
    obtain ⟨is, g2, h4, h5, h6⟩ := logPflipMany_ok hne h hs n g1
    refine ⟨i :: is, g2, ?_, by simp [h5], List.forall_mem_cons.2 ⟨⟨h2, h3⟩, h6⟩⟩
    unfold logPflipMany
    rw [Py.bind_apply, h1]
    dsimp only
    rw [Py.bind_apply, h4]
    rfl

variable {toM : RowMix A → Metadata} {fromM : Metadata → Except Err (RowMix A)}

theorem MixAt.only_cluster (h : MixAt AI I MA R m r supp w C OK) (z : Val) (u : Dict Var Val) :
    only (AI.outputs m.array) ((m.indexer, z) :: u) = only (AI.outputs m.array) u := by
  unfold only
  rw [List.filter_cons, if_neg]
  simpa using h.x_out

/-- The posterior weights of the clusters. -/
theorem MixAt.weights (L : Laws I M) (LA : Laws AI MA) (LR : ArrLaws AI I MA M R)
    (h : MixAt AI I MA R m r supp w C OK) {outs : List Var} {cs : Dict Var Val}
    (hq : IsQuery outs (mixOK m.indexer supp OK) [] cs) (hcn : m.indexer ∉ Dict.keys cs)
    (hJ : mixJ AI I m r supp w C cs ≠ 0) (g : Rng) : ∃ W : Int → Fl,
      (supp.mapM fun z : Int => (RowMix.logpdf AI r [(m.indexer, .num z)] cs [] (m, g)).1) =
        .ok (supp.map W) ∧ (∀ k ∈ supp, (W k).IsLogP) ∧ (supp.map fun k => (W k).exp).sum = 1 ∧
      (∀ k ∈ supp, (W k).exp ≠ 0 → (compLp AI I m r C k cs []).exp ≠ 0) ∧
      ∀ k ∈ supp, ∀ g, (RowMix.logpdf AI r [(m.indexer, .num (k : ℚ))] cs [] (m, g)).1 = .ok (W k) := by
  let toM : RowMix A → Metadata := fun _ => .product []
  let fromM : Metadata → Except Err (RowMix A) := fun _ => .error .typeError
  obtain ⟨h1, h2⟩ := h.total (toM := toM) (fromM := fromM) L LA LR hq (by simp [Dict.keys]) hcn hJ
  rw [lp_nil, Fl.exp_zero] at h2
  have h3 := fun k hk => h.lp_ratio (toM := toM) (fromM := fromM) L LA LR (h1 k hk) hJ
  have hv : ∀ k ∈ supp, ∀ g, (RowMix.logpdf AI r [(m.indexer, .num (k : ℚ))] cs [] (m, g)).1 =
      .ok (lp (rowMixI AI toM fromM) r m [(m.indexer, .num (k : ℚ))] cs) := fun k hk g =>
    lp_ok (I := rowMixI AI toM fromM) (fun r t c i => RowMix.noDraw_logpdf LA r t c i) (h3 k hk).1
      (by simp) g
  refine ⟨fun k => lp (rowMixI AI toM fromM) r m [(m.indexer, .num (k : ℚ))] cs, ?_,
    fun k hk => (h3 k hk).1, h2, ?_, hv⟩
  · clear * - hv
    induction supp with
    | nil => rfl
    | cons k l ih =>
      rw [List.mapM_cons, hv k (by simp), ih fun k hk => hv k (by simp [hk])]
      rfl
  · intro k hk hne h0
    apply hne
    have := (h3 k hk).2
    rw [List.nil_append] at this
    rw [this]
    have e : mixJ AI I m r supp w C ([(m.indexer, .num (k : ℚ))] ++ cs) = 0 := by
      unfold mixJ
      rw [List.singleton_append, Dict.get?_cons, if_pos rfl]
      dsimp only
      unfold mixJz compLp
      rw [h.only_cluster, clusterOf_int]
      unfold compLp at h0
      rw [h0, mul_zero]
    rw [e, zero_div]

/-- A mixture answers. -/
theorem MixAt.simulates (L : Laws I M) (LA : Laws AI MA) (LR : ArrLaws AI I MA M R)
    (h : MixAt AI I MA R m r supp w C OK) (hnn : ∀ k ∈ supp, 0 ≤ k) {outs : List Var} {cs : Dict Var Val}
    (hq : IsQuery outs (mixOK m.indexer supp OK) [] cs) (hJ : mixJ AI I m r supp w C cs ≠ 0)
    {t : List Var} (ht : ∀ v ∈ t, v = m.indexer ∨ v ∈ AI.outputs m.array)
    (hcomp : ∀ k ∈ supp, (compLp AI I m r C k cs []).exp ≠ 0 → onlyVars (AI.outputs m.array) t ≠ [] →
      ∀ N g, N ≠ some 0 → ∃ out, (I.simulate r (onlyVars (AI.outputs m.array) t)
        (only (AI.outputs m.array) cs) [] N (C k, g)).1 = .ok out ∧
        ExactSamples N (onlyVars (AI.outputs m.array) t) out) {N : Option Nat} (hN : N ≠ some 0) (g : Rng) :
    ∃ out, (RowMix.simulate AI r t cs [] N (m, g)).1 = .ok out := by
  have hone : ∀ k ∈ supp, (compLp AI I m r C k cs []).exp ≠ 0 → ∀ N, N ≠ some 0 → ∀ g, ∃ out,
      (RowMix.simulateOne AI r t cs [] N (.num (k : ℚ)) (m, g)).1 = .ok out ∧ ExactSamples N t out := by
    intro k hk hk0 N hN g
    obtain ⟨out, ho⟩ := mixSimulateOne_ok (t := t) (cs := cs) (N := N) (g := g) LR h.inv h.x_eq (h.get k hk)
      fun hT => by
        obtain ⟨o, h1, h2⟩ := hcomp k hk hk0 hT N g hN
        exact ⟨o, h1, h2.1⟩
    refine ⟨out, ho, (mixSimulateOne_exact LR h.inv h.x_eq (h.get k hk) ht ?_ ho).1⟩
    intro hT o ho
    obtain ⟨o', h1, h2⟩ := hcomp k hk hk0 hT N g hN
    rw [h1] at ho
    cases ho
    exact h2
  unfold RowMix.simulate
  rw [Py.get_bind]
  dsimp only
  rw [h.held]
  dsimp only
  rcases hz : Dict.get? cs m.indexer with _ | z <;> dsimp only
  · have hcn := (Dict.get?_eq_none_iff _ _).1 hz
    obtain ⟨W, w1, w2, w3, w4, -⟩ := h.weights L LA LR hq hcn hJ g
    rw [RowMix.simulateFresh_val LA h.refl h.support w1]
    have hne : supp.map W ≠ [] := by
      rintro h0
      rw [List.map_eq_nil_iff] at h0
      rw [h0] at w3
      simp at w3
    obtain ⟨is, g', e1, e2, e3⟩ := logPflipMany_ok hne (by
      intro x hx
      obtain ⟨k, hk, rfl⟩ := List.mem_map.1 hx
      exact w2 k hk) (by rw [List.map_map]; simp only [Function.comp_def]; rw [w3]; norm_num) (drawn N) g
    have hi : ∀ z ∈ is.map (fun i : Nat => supp.getD i 0), z ∈ supp ∧ (W z).exp ≠ 0 := by
      intro z hz
      obtain ⟨i, hi, rfl⟩ := List.mem_map.1 hz
      obtain ⟨h1, h2⟩ := e3 i hi
      rw [List.length_map] at h1
      rw [List.getD_eq_getElem?_getD, List.getElem?_eq_getElem h1, Option.getD_some]
      refine ⟨List.getElem_mem _, ?_⟩
      simp only [List.map_map, List.getD_eq_getElem?_getD, List.getElem?_map,
        List.getElem?_eq_getElem h1, Option.map_some, Option.getD_some, Function.comp_apply] at h2
      exact h2.ne'
    rw [Py.bind_apply]
    have : Py.onSnd (S := RowMix A) (logPflipMany (supp.map W) (drawn N)) (m, g) = (.ok is, (m, g')) := by
      unfold Py.onSnd
      dsimp only
      rw [e1]
    rw [this]
    have hne' : is.map (fun i : Nat => supp.getD i 0) ≠ [] := by
      intro h0
      rw [List.map_eq_nil_iff] at h0
      rw [h0] at e2
      rcases N with _ | n
      · simp [drawn] at e2
      · simp only [drawn, List.length_nil] at e2
        split at e2 <;> omega
    obtain ⟨out, ho, -⟩ := shares_ok LA h.refl (Q := fun _ _ => True) (r := r) (t := t) (cs := cs) (N := N)
      hne' (fun z hz => hnn z (hi z hz).1) (fun z hz n hn g => by
        obtain ⟨o, h1, h2⟩ := hone z (hi z hz).1 (w4 z (hi z hz).1 (hi z hz).2) (some n) (by simpa using hn) g
        exact ⟨o, h1, h2, fun _ _ => trivial⟩) g'
    exact ⟨out, ho⟩
  · obtain ⟨k, hk, rfl⟩ := (hq.ok _ (Dict.mem_of_get? hz)).1 rfl
    rw [Py.lift_bind, h.support]
    dsimp only
    rw [if_neg (not_not.2 ⟨k, hk, rfl⟩)]
    have : (compLp AI I m r C k cs []).exp ≠ 0 := by
      intro h0
      apply hJ
      unfold mixJ
      rw [hz]
      dsimp only
      rw [clusterOf_int]
      unfold mixJz
      rw [h0, mul_zero]
    obtain ⟨out, ho, -⟩ := hone k hk this N hN g
    exact ⟨out, ho⟩

/-- The cluster of the sample a mixture returns is the one drawn from the posterior weights. -/
theorem MixAt.draws (L : Laws I M) (LA : Laws AI MA) (LR : ArrLaws AI I MA M R)
    (h : MixAt AI I MA R m r supp w C OK) (hnn : ∀ k ∈ supp, 0 ≤ k) {outs : List Var} {cs : Dict Var Val}
    (hq : IsQuery outs (mixOK m.indexer supp OK) [] cs) (hJ : mixJ AI I m r supp w C cs ≠ 0)
    (hcn : m.indexer ∉ Dict.keys cs)
    {t : List Var} (ht : ∀ v ∈ t, v = m.indexer ∨ v ∈ AI.outputs m.array) (hx : m.indexer ∈ t)
    (hcomp : ∀ k ∈ supp, (compLp AI I m r C k cs []).exp ≠ 0 → onlyVars (AI.outputs m.array) t ≠ [] →
      ∀ N g, N ≠ some 0 → ∃ out, (I.simulate r (onlyVars (AI.outputs m.array) t)
        (only (AI.outputs m.array) cs) [] N (C k, g)).1 = .ok out ∧
        ExactSamples N (onlyVars (AI.outputs m.array) t) out) :
    ∃ W : Int → Fl, (∀ k ∈ supp, (W k).IsLogP) ∧ (supp.map fun k => (W k).exp).sum = 1 ∧
      (∀ k ∈ supp, ∀ g, (RowMix.logpdf AI r [(m.indexer, .num (k : ℚ))] cs [] (m, g)).1 = .ok (W k)) ∧
      ∀ g, ∃ i s, (logPflipIdx (supp.map W) g).1 = .ok i ∧ i < supp.length ∧
        (RowMix.simulate AI r t cs [] none (m, g)).1 = .ok (.one s) ∧
        Dict.get? s m.indexer = some (.num (supp.getD i 0 : ℚ)) := by
  obtain ⟨W, -, w2, w3, w4, w5⟩ := h.weights L LA LR hq hcn hJ (fun _ => ⟨0, 0⟩)
  refine ⟨W, w2, w3, w5, fun g => ?_⟩
  have w1 : (supp.mapM fun z : Int => (RowMix.logpdf AI r [(m.indexer, .num z)] cs [] (m, g)).1) =
      .ok (supp.map W) := by
    clear * - w5
    induction supp with
    | nil => rfl
    | cons k l ih =>
      rw [List.mapM_cons, w5 k (by simp), ih fun k hk => w5 k (by simp [hk])]
      rfl
  have hone : ∀ k ∈ supp, (compLp AI I m r C k cs []).exp ≠ 0 → ∀ N, N ≠ some 0 → ∀ g, ∃ out,
      (RowMix.simulateOne AI r t cs [] N (.num (k : ℚ)) (m, g)).1 = .ok out ∧ ExactSamples N t out ∧
      ∀ s ∈ samplesOf out, Dict.get? s m.indexer = some (.num (k : ℚ)) := by
    intro k hk hk0 N hN g
    obtain ⟨out, ho⟩ := mixSimulateOne_ok (t := t) (cs := cs) (N := N) (g := g) LR h.inv h.x_eq (h.get k hk)
      fun hT => by
        obtain ⟨o, h1, h2⟩ := hcomp k hk hk0 hT N g hN
        exact ⟨o, h1, h2.1⟩
    have := mixSimulateOne_exact LR h.inv h.x_eq (h.get k hk) ht (fun hT o ho => by
      obtain ⟨o', h1, h2⟩ := hcomp k hk hk0 hT N g hN
      rw [h1] at ho
      cases ho
      exact h2) ho
    exact ⟨out, ho, this.1, this.2 hx⟩
  have hne : supp.map W ≠ [] := by
    rintro h0
    rw [List.map_eq_nil_iff] at h0
    rw [h0] at w3
    simp at w3
  obtain ⟨i, g', e1, e2, e3⟩ := logPflipIdx_ok (supp.map W) hne (by
    intro x hx
    obtain ⟨k, hk, rfl⟩ := List.mem_map.1 hx
    exact w2 k hk) (by rw [List.map_map]; simp only [Function.comp_def]; rw [w3]; norm_num) g
  rw [List.length_map] at e2
  have hd : supp.getD i 0 = supp[i] := by
    rw [List.getD_eq_getElem?_getD, List.getElem?_eq_getElem e2, Option.getD_some]
  have hk : supp.getD i 0 ∈ supp := by rw [hd]; exact List.getElem_mem _
  have hW : (W (supp.getD i 0)).exp ≠ 0 := by
    simp only [List.map_map, List.getD_eq_getElem?_getD, List.getElem?_map,
      List.getElem?_eq_getElem e2, Option.map_some, Option.getD_some, Function.comp_apply] at e3
    rw [hd]
    exact e3.ne'
  obtain ⟨out, ho, hw, hQ⟩ := shares_ok LA h.refl (N := none)
    (Q := fun z s => Dict.get? s m.indexer = some (.num (z : ℚ))) (r := r) (t := t) (cs := cs)
    (zs := [supp.getD i 0]) (by simp) (fun z hz => by rw [List.mem_singleton.1 hz]; exact hnn _ hk)
    (fun z hz n hn g => by
      rw [List.mem_singleton.1 hz]
      exact hone _ hk (w4 _ hk hW) (some n) (by simpa using hn) g) g'
  rcases out with s | l
  swap
  · exact False.elim hw
  refine ⟨i, s, by rw [e1], e2, ?_, ?_⟩
  · unfold RowMix.simulate
    rw [Py.get_bind]
    dsimp only
    rw [h.held]
    dsimp only
    rw [(Dict.get?_eq_none_iff _ _).2 hcn]
    dsimp only
    rw [RowMix.simulateFresh_val LA h.refl h.support w1, Py.bind_apply]
    have : Py.onSnd (S := RowMix A) (logPflipMany (supp.map W) (drawn none)) (m, g) =
        (.ok [i], (m, g')) := by
      unfold Py.onSnd drawn logPflipMany
      rw [Py.bind_apply, e1]
      rfl
    rw [this]
    exact ho
  · obtain ⟨z, hz, hs⟩ := hQ s (by simp [samplesOf])
    rw [List.mem_singleton.1 hz] at hs
    exact hs

end

/-! ## Models of any depth -/

theorem plausible_askable' : ∀ (n : Nat) (c : Cgpm n) (v : Var) (x : Val), Plausible n c v x →
    Askable n c v x
  | 0, _, _, _, h => Prim.plausible_askable h
  | _ + 1, .prim _, _, _, h => Prim.plausible_askable h
  | n + 1, .product _, v, x, h => fun c hc => plausible_askable' n c v x (h c hc)
  | _ + 1, .finArray _, _, _, h => h.elim
  | _ + 1, .flexArray _, _, _, h => h.elim
  | _ + 1, .finMix _, _, _, h => ⟨h.1, fun c hc => .inr (h.2 c hc)⟩
  | _ + 1, .flexMix _, _, _, h => ⟨h.1, fun c hc => .inr (h.2 c hc)⟩

theorem compOK_askable {n : Nat} {c : Cgpm n} {v : Var} {x : Val} (h : CompOK n c v x) :
    Askable n c v x := h.elim And.right (plausible_askable' n c v x)

theorem divides_nonneg {d : Prim} (hd : Divides d) (h : d.Good) {supp : List Int}
    (hs : d.support = .ok supp) : ∀ k ∈ supp, 0 ≤ k := by
  cases d with
  | crp c =>
    cases hs
    have hI : c.Inv := h.1
    obtain ⟨f, h1, h2⟩ := Crp.support_spec hI
    intro k hk
    rw [h1, List.mem_append, Crp.mem_tables hI, List.mem_singleton] at hk
    rcases hk with hk | rfl
    · exact hI.nonneg k hk
    · rcases h2 with ⟨-, rfl⟩ | ⟨h2, -⟩
      · exact le_refl _
      · have := hI.nonneg _ h2
        omega
  | categorical c =>
    cases hs
    intro k hk
    obtain ⟨i, -, rfl⟩ := List.mem_map.1 hk
    omega
  | bernoulli c =>
    cases hs
    intro k hk
    rcases List.mem_cons.1 hk with rfl | hk
    · exact le_refl _
    · rw [List.mem_singleton.1 hk]; norm_num
  | normal c => simp [Divides, Prim.kind] at hd
  | normalUC c => simp [Divides, Prim.kind] at hd
  | poisson c => simp [Divides, Prim.kind] at hd

theorem SimAsk.part {outs : List Var} {OK OK' : Var → Val → Prop} {t : List Var} {cs : Dict Var Val}
    (h : SimAsk outs OK t cs) {l : List Var} (ht : onlyVars l t ≠ [])
    (hk : ∀ kv ∈ cs, kv.1 ∈ l → OK' kv.1 kv.2) : SimAsk l OK' (onlyVars l t) (only l cs) where
  ne := ht
  nodup := h.nodup.sublist (List.filter_sublist.append (List.filter_sublist.map _))
  out v hv := (mem_onlyVars.1 hv).2
  query := (h.query.only l).mono (h.query.only l).out fun kv hkv => by
    have h1 := List.mem_filter.1 (show kv ∈ only l cs from hkv)
    exact hk kv h1.1 (by simpa using h1.2)

theorem prim_answers {Z : List Var} {p : Prim} {r : RowId} {t : List Var} {cs : Dict Var Val}
    (hreg : (primTab Z).Reg p) (hf : (primTab Z).Fresh p r) {OK : Var → Val → Prop}
    (ha : SimAsk p.outputs OK t cs) (N : Option Nat) (g : Rng) :
    ∃ out, (p.simulate r t cs [] N g).1 = .ok out := by
  obtain ⟨o, ho⟩ := hreg.1.1.out
  have ht : t = [o] := by
    have hn : t.Nodup := ha.nodup.sublist (List.sublist_append_left ..)
    have h1 : ∀ v ∈ t, v = o := fun v hv => by simpa [ho] using ha.out v hv
    rcases t with _ | ⟨a, _ | ⟨b, t⟩⟩
    · exact absurd rfl ha.ne
    · rw [h1 a (by simp)]
    · have h2 := h1 a (by simp)
      have h3 := h1 b (by simp)
      subst h2
      rw [h3] at hn
      simp at hn
  have hc : cs = [] := by
    rcases cs with _ | ⟨kv, cs⟩
    · rfl
    · have h1 := ha.query.out kv (by simp)
      rw [ho, List.mem_singleton] at h1
      have h2 := ha.nodup
      rw [ht] at h2
      simp [Dict.keys, h1] at h2
  subst ht hc
  exact prim_simulates hreg.1 ho ((Dict.get?_eq_none_iff _ _).1 (primTab_fresh hreg hf)) N g

/-- What is known of a component: it answers. -/
theorem comp_answers {Z : List Var} {n : Nat} (ih : ∀ (c : Cgpm n) (r : RowId) (t : List Var)
    (cs : Dict Var Val) (N : Option Nat) (g : Rng), (cgpmTab Z n).Reg c → (cgpmTab Z n).Fresh c r →
    SimAsk ((cgpmI n).outputs c) (Askable n c) t cs → lp (cgpmI n) r c cs [] ≠ .ninf → N ≠ some 0 →
    ∃ out, ((cgpmI n).simulate r t cs [] N (c, g)).1 = .ok out)
    {c0 c : Cgpm n} {r : RowId} (h2 : (cgpmTab Z n).Reg c0) (h3 : (cgpmTab Z n).Fresh c0 r)
    (h4 : (cgpmSem n).E c0 c) {outs : List Var} (hout : (cgpmI n).outputs c = outs) {t : List Var}
    {cs : Dict Var Val} {outs' : List Var} {OK : Var → Val → Prop} (ha : SimAsk outs' OK t cs)
    (hT : onlyVars outs t ≠ []) (hOK : ∀ kv ∈ cs, CompOK n c0 kv.1 kv.2)
    (hp : (lp (cgpmI n) r c (only outs cs) []).exp ≠ 0) {N : Option Nat} (hN : N ≠ some 0) (g : Rng) :
    ∃ out, ((cgpmI n).simulate r (onlyVars outs t) (only outs cs) [] N (c, g)).1 = .ok out ∧
      ExactSamples N (onlyVars outs t) out := by
  have L := cgpmLaws n
  have ho : (cgpmI n).outputs c0 = outs := (L.outputs_E h4).trans hout
  have ha' := ha.part (l := outs) (OK' := Askable n c0) hT fun kv hkv _ => compOK_askable (hOK kv hkv)
  rw [← ho] at ha'
  obtain ⟨out, h5⟩ := ih c0 r _ _ N g h2 h3 ha' (by
    intro h0
    rw [ho, lp_E L h4] at h0
    rw [h0] at hp
    exact hp rfl) hN
  have h6 := cgpmSim Z n c0 r _ _ N g out h2 (.inl h3) ha'.out hN h5
  rw [ho] at h5 h6
  exact ⟨out, (L.simulate r _ _ [] N c0 c g h4).1.symm.trans h5, h6⟩

theorem cgpm_simulates (Z : List Var) : (n : Nat) → ∀ (c : Cgpm n) (r : RowId) (t : List Var)
    (cs : Dict Var Val) (N : Option Nat) (g : Rng), (cgpmTab Z n).Reg c → (cgpmTab Z n).Fresh c r →
    SimAsk ((cgpmI n).outputs c) (Askable n c) t cs → lp (cgpmI n) r c cs [] ≠ .ninf → N ≠ some 0 →
    ∃ out, ((cgpmI n).simulate r t cs [] N (c, g)).1 = .ok out
  | 0, p, r, t, cs, N, g, hreg, hf, ha, _, _ => prim_answers (Z := Z) hreg hf ha N g
  | n + 1, .prim p, r, t, cs, N, g, hreg, hf, ha, _, _ => prim_answers (Z := Z) hreg hf ha N g
  | n + 1, .product p, r, t, cs, N, g, hreg, hf, ha, hp, hN => by
    have hreg : (productTab (cgpmI n) (cgpmTab Z n)).Reg p := hreg
    have hfr := product_fresh hf
    have hne : p.cgpms ≠ [] := by
      intro h0
      rcases t with _ | ⟨v, t⟩
      · exact ha.ne rfl
      · have : v ∈ p.cgpms.flatMap (cgpmI n).outputs := ha.out v (by simp)
        rw [h0] at this
        simp at this
    refine product_simulates (cgpmSim Z n) hne (fun c hc => ⟨hreg.1 c hc, hfr c hc⟩) hN
      (fun c hc hT g => ?_) g
    refine cgpm_simulates Z n c r _ _ N g (hreg.1 c hc) (hfr c hc)
      (ha.part hT fun kv hkv _ => ha.query.ok kv hkv c hc) ?_ hN
    intro h0
    have hlp := (sameLp_product p r).lp
    have hall : ∀ b ∈ p.cgpms, (lp (cgpmI n) r b (only ((cgpmI n).outputs b) cs) []).IsLogP :=
      fun b hb => ((cgpmDLaws Z n).wdens b r (hreg.1 b hb) (hfr b hb)).isLogP0
        ((ha.query.right.only _).mono (ha.query.right.only _).out fun kv hkv =>
          ha.query.ok kv (by
            have : kv ∈ only ((cgpmI n).outputs b) cs := by simpa [only] using hkv
            simpa using (List.mem_filter.1 this).1) b hb)
    rw [hlp, product_lp' (c := []) (cgpmLaws n) hall] at hp
    have h1 := Fl.isLogP_sum (l := p.cgpms.map fun b =>
      lp (cgpmI n) r b (only ((cgpmI n).outputs b) cs) []) (by
        intro x hx
        obtain ⟨b, hb, rfl⟩ := List.mem_map.1 hx
        exact hall b hb)
    have hfin : ∀ x : Fl, x ≠ .ninf → x.IsLogP → ∃ y, x = .fin y := by
      rintro (_ | _ | _ | x) hp h1
      · exact False.elim h1
      · exact absurd rfl hp
      · exact False.elim h1
      · exact ⟨x, rfl⟩
    have hfin := hfin _ hp h1
    rw [← Fl.sum_eq] at hfin
    obtain ⟨y, hy⟩ := (Fl.sum_fin_iff _).1 hfin _ (List.mem_map.2 ⟨c, hc, rfl⟩)
    have hy := h0.symm.trans hy
    cases hy
  | n + 1, .finArray a, _, _, _, _, _, hreg, _, _, _, _ => hreg.elim
  | n + 1, .flexArray a, _, _, _, _, _, hreg, _, _, _, _ => hreg.elim
  | n + 1, .finMix m, r, t, cs, N, g, hreg, hf, ha, hp, hN => by
    have hreg : (finMixTab (cgpmI n) (cgpmSem n) Z (cgpmTab Z n)).Reg m := hreg
    have D := cgpmDLaws Z n
    have L := cgpmLaws n
    obtain ⟨supp, w, C, hA⟩ := finMixAt (OKc := CompOK n) hreg hf fun c h1 h2 => D.comp h1 h2
    have hq2 : IsQuery _ (mixOK m.indexer supp (finOK n (CompOK n) m)) [] cs :=
      ha.query.mono ha.query.out fun kv hk => mixOK_of (OK := finOK n (CompOK n) m) hA.out hA.support
        (ha.query.ok kv hk).1 (ha.query.ok kv hk).2
    have hlp := (sameLp_finMix m r).lp
    rw [hlp] at hp
    have hJ := hA.lp_joint (toM := FinMix.toMetadata (cgpmI n))
      (fromM := FinMix.fromMetadata (cgpmI n)) L (finArrayLaws L) (finArrLaws _ _) hq2.right
    have hJ0 : mixJ (finArrayI (cgpmI n)) (cgpmI n) m r supp w C cs ≠ 0 := fun h0 =>
      hp ((Fl.exp_eq_zero_iff hJ.1).1 (hJ.2.trans h0))
    refine hA.simulates L (finArrayLaws L) (finArrLaws _ _) (divides_nonneg hreg.divides hreg.inv.1 hA.support)
      hq2 hJ0 ?_ ?_ hN g
    · intro v hv
      have : v ∈ m.rowDivide.outputs ++ (finArrayI (cgpmI n)).outputs m.array := ha.out v hv
      rw [hA.out] at this
      simpa using this
    · intro k hk hk0 hT N g hN
      obtain ⟨c0, h1, h2, h3, h4⟩ := finMix_comps hreg (finMix_unheld hf) (hA.get k hk)
      exact comp_answers (cgpm_simulates Z n) h2 h3 h4 (hA.outs k hk) ha hT
        (fun kv hkv => (ha.query.ok kv hkv).2 c0 h1) hk0 hN g
  | n + 1, .flexMix m, r, t, cs, N, g, hreg, hf, ha, hp, hN => by
    have hreg : (flexMixTab (cgpmI n) (cgpmSem n) Z (cgpmTab Z n)).Reg m := hreg
    have D := cgpmDLaws Z n
    have L := cgpmLaws n
    obtain ⟨supp, w, C, hA⟩ := flexMixAt (OKc := CompOK n) hreg hf fun c h1 h2 => D.comp h1 h2
    have hq2 : IsQuery _ (mixOK m.indexer supp (flexOK n (CompOK n) m)) [] cs :=
      ha.query.mono ha.query.out fun kv hk => mixOK_of (OK := flexOK n (CompOK n) m) hA.out hA.support
        (ha.query.ok kv hk).1 (ha.query.ok kv hk).2
    have hlp := (sameLp_flexMix m r).lp
    rw [hlp] at hp
    have hJ := hA.lp_joint (toM := FlexMix.toMetadata (cgpmI n))
      (fromM := FlexMix.fromMetadata (cgpmI n)) L (flexArrayLaws L) (flexArrLaws L) hq2.right
    have hJ0 : mixJ (flexArrayI (cgpmI n)) (cgpmI n) m r supp w C cs ≠ 0 := fun h0 =>
      hp ((Fl.exp_eq_zero_iff hJ.1).1 (hJ.2.trans h0))
    refine hA.simulates L (flexArrayLaws L) (flexArrLaws L) (divides_nonneg hreg.divides hreg.inv.1 hA.support)
      hq2 hJ0 ?_ ?_ hN g
    · intro v hv
      have : v ∈ m.rowDivide.outputs ++ (flexArrayI (cgpmI n)).outputs m.array := ha.out v hv
      rw [hA.out] at this
      simpa using this
    · intro k hk hk0 hT N g hN
      obtain ⟨c0, h1, h2, h3, h4⟩ := flexMix_comps hreg (flexMix_unheld hf) (hA.get k hk)
      exact comp_answers (cgpm_simulates Z n) h2 h3 h4 (hA.outs k hk) ha hT
        (fun kv hkv => (ha.query.ok kv hkv).2 c0 h1) hk0 hN g

theorem divides_nodup {d : Prim} (hd : Divides d) (h : d.Good) {supp : List Int}
    (hs : d.support = .ok supp) : supp.Nodup := by
  cases d with
  | crp c => cases hs; exact Crp.support_nodup h.1
  | categorical c =>
    cases hs
    exact List.Nodup.map (fun a b h => by simpa using h) List.nodup_range
  | bernoulli c => cases hs; exact (by decide : [(0 : Int), 1].Nodup)
  | normal c => simp [Divides, Prim.kind] at hd
  | normalUC c => simp [Divides, Prim.kind] at hd
  | poisson c => simp [Divides, Prim.kind] at hd

/-- The chance of a cluster, from the cluster drawn. -/
theorem chance_cluster {supp : List Int} (hn : supp.Nodup) {W : Int → Fl} (w2 : ∀ k ∈ supp, (W k).IsLogP)
    (w3 : (supp.map fun k => (W k).exp).sum = 1) {P : Rng → Int → Prop} (hP : ∀ g, ∃ i, (logPflipIdx (supp.map W) g).1 = .ok i ∧
      i < supp.length ∧ ∀ k, P g k ↔ k = supp.getD i 0) (g : Rng) {k : Int} (hk : k ∈ supp) :
    chance (fun u => P (withUniform u g) k) = ENNReal.ofReal (W k).exp := by
  obtain ⟨j, hj, rfl⟩ := List.mem_iff_getElem.1 hk
  have h1 := chance_logPflipIdx (supp.map W) (by
    intro x hx
    obtain ⟨k, hk, rfl⟩ := List.mem_map.1 hx
    exact w2 k hk) (by rw [List.map_map]; simp only [Function.comp_def]; rw [w3]; norm_num) g j (by simpa using hj)
  have h2 : ((supp.map W).map Fl.exp).getD j 0 / ((supp.map W).map Fl.exp).sum = (W supp[j]).exp := by
    rw [List.map_map]
    simp only [Function.comp_def]
    rw [w3, div_one]
    simp [List.getD_eq_getElem?_getD, List.getElem?_eq_getElem hj]
  rw [h2] at h1
  rw [← h1]
  apply chance_congr
  intro u _
  obtain ⟨i, e1, e2, e3⟩ := hP (withUniform u g)
  rw [e3, e1, List.getD_eq_getElem?_getD, List.getElem?_eq_getElem e2, Option.getD_some,
    hn.getElem_inj_iff]
  simp [eq_comm]

/-- The cluster of an unheld row is drawn from its posterior. -/
theorem mix_draws {Z : List Var} {n : Nat} {c : Cgpm (n + 1)} (h : (cgpmTab Z (n + 1)).Reg c) {z : Var}
    {supp : List Int} (hm : IsMixture c z supp) {r : RowId} (hr : (cgpmTab Z (n + 1)).Fresh c r)
    {t : List Var} {cs : Dict Var Val}
    (ha : SimAsk ((cgpmI (n + 1)).outputs c) (Askable (n + 1) c) t cs)
    (hz : z ∈ t) (hp : lp (cgpmI (n + 1)) r c cs [] ≠ .ninf) :
    supp.Nodup ∧ ∃ W : Int → Fl, (∀ k ∈ supp, (W k).IsLogP) ∧ (supp.map fun k => (W k).exp).sum = 1 ∧
      (∀ k ∈ supp, ∀ g, ((cgpmI (n + 1)).logpdf r [(z, .num (k : ℚ))] cs [] (c, g)).1 = .ok (W k)) ∧
      ∀ g, ∃ i s, (logPflipIdx (supp.map W) g).1 = .ok i ∧ i < supp.length ∧
        ((cgpmI (n + 1)).simulate r t cs [] none (c, g)).1 = .ok (.one s) ∧
        Dict.get? s z = some (.num (supp.getD i 0 : ℚ)) := by
  cases c with
  | prim p => exact hm.elim
  | product p => exact hm.elim
  | finArray p => exact hm.elim
  | flexArray p => exact hm.elim
  | finMix m =>
    have hreg : (finMixTab (cgpmI n) (cgpmSem n) Z (cgpmTab Z n)).Reg m := h
    have D := cgpmDLaws Z n
    have L := cgpmLaws n
    obtain ⟨supp', w, C, hA⟩ := finMixAt (OKc := CompOK n) hreg hr fun c h1 h2 => D.comp h1 h2
    obtain rfl : supp' = supp := by
      have := hA.support.symm.trans hm.2
      cases this; rfl
    obtain rfl : z = m.indexer := by
      have := hA.out.symm.trans hm.1
      simpa using this.symm
    have hq2 : IsQuery _ (mixOK m.indexer supp' (finOK n (CompOK n) m)) [] cs :=
      ha.query.mono ha.query.out fun kv hk => mixOK_of (OK := finOK n (CompOK n) m) hA.out hA.support
        (ha.query.ok kv hk).1 (ha.query.ok kv hk).2
    have hlp := (sameLp_finMix m r).lp
    rw [hlp] at hp
    have hJ := hA.lp_joint (toM := FinMix.toMetadata (cgpmI n))
      (fromM := FinMix.fromMetadata (cgpmI n)) L (finArrayLaws L) (finArrLaws _ _) hq2.right
    have hJ0 : mixJ (finArrayI (cgpmI n)) (cgpmI n) m r supp' w C cs ≠ 0 := fun h0 =>
      hp ((Fl.exp_eq_zero_iff hJ.1).1 (hJ.2.trans h0))
    refine ⟨divides_nodup hreg.divides hreg.inv.1 hA.support, ?_⟩
    refine hA.draws L (finArrayLaws L) (finArrLaws _ _) (divides_nonneg hreg.divides hreg.inv.1 hA.support)
      hq2 hJ0 ?_ ?_ hz ?_
    · intro hk
      exact (List.nodup_append.1 ha.nodup).2.2 _ hz _ hk rfl
    · intro v hv
      have : v ∈ m.rowDivide.outputs ++ (finArrayI (cgpmI n)).outputs m.array := ha.out v hv
      rw [hA.out] at this
      simpa using this
    · intro k hk hk0 hT N g hN
      obtain ⟨c0, h1, h2, h3, h4⟩ := finMix_comps hreg (finMix_unheld hr) (hA.get k hk)
      exact comp_answers (cgpm_simulates Z n) h2 h3 h4 (hA.outs k hk) ha hT
        (fun kv hkv => (ha.query.ok kv hkv).2 c0 h1) hk0 hN g
  | flexMix m =>
    have hreg : (flexMixTab (cgpmI n) (cgpmSem n) Z (cgpmTab Z n)).Reg m := h
    have D := cgpmDLaws Z n
    have L := cgpmLaws n
    obtain ⟨supp', w, C, hA⟩ := flexMixAt (OKc := CompOK n) hreg hr fun c h1 h2 => D.comp h1 h2
    obtain rfl : supp' = supp := by
      have := hA.support.symm.trans hm.2
      cases this; rfl
    obtain rfl : z = m.indexer := by
      have := hA.out.symm.trans hm.1
      simpa using this.symm
    have hq2 : IsQuery _ (mixOK m.indexer supp' (flexOK n (CompOK n) m)) [] cs :=
      ha.query.mono ha.query.out fun kv hk => mixOK_of (OK := flexOK n (CompOK n) m) hA.out hA.support
        (ha.query.ok kv hk).1 (ha.query.ok kv hk).2
    have hlp := (sameLp_flexMix m r).lp
    rw [hlp] at hp
    have hJ := hA.lp_joint (toM := FlexMix.toMetadata (cgpmI n))
      (fromM := FlexMix.fromMetadata (cgpmI n)) L (flexArrayLaws L) (flexArrLaws L) hq2.right
    have hJ0 : mixJ (flexArrayI (cgpmI n)) (cgpmI n) m r supp' w C cs ≠ 0 := fun h0 =>
      hp ((Fl.exp_eq_zero_iff hJ.1).1 (hJ.2.trans h0))
    refine ⟨divides_nodup hreg.divides hreg.inv.1 hA.support, ?_⟩
    refine hA.draws L (flexArrayLaws L) (flexArrLaws L) (divides_nonneg hreg.divides hreg.inv.1 hA.support)
      hq2 hJ0 ?_ ?_ hz ?_
    · intro hk
      exact (List.nodup_append.1 ha.nodup).2.2 _ hz _ hk rfl
    · intro v hv
      have : v ∈ m.rowDivide.outputs ++ (flexArrayI (cgpmI n)).outputs m.array := ha.out v hv
      rw [hA.out] at this
      simpa using this
    · intro k hk hk0 hT N g hN
      obtain ⟨c0, h1, h2, h3, h4⟩ := flexMix_comps hreg (flexMix_unheld hr) (hA.get k hk)
      exact comp_answers (cgpm_simulates Z n) h2 h3 h4 (hA.outs k hk) ha hT
        (fun kv hkv => (ha.query.ok kv hkv).2 c0 h1) hk0 hN g

end Cgpm2
