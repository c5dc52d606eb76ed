import Verif.Lemmas.SimulateLaw

/-!
# The law of one simulated row: mixtures and models of any depth (helpers)
-/

namespace Cgpm2
open Spec MeasureTheory

variable {S : Type} {μ : Measure Draw} [IsProbabilityMeasure μ]

theorem Py.run_bind {T α β : Type} {E : S → S → Prop} {f : Py (S × T) α} {k : α → Py (S × T) β}
    (hn : Py.NoDraw f) (hf : Py.Keeps E f) (hk : ∀ a, Py.Rel E (k a) (k a)) {s : S} (hs : E s s) {g : T}
    {a : α} (ha : (f (s, g)).1 = .ok a) :
    ((f >>= k) (s, g)).1 = (k a (s, g)).1 ∧ ((f >>= k) (s, g)).2.2 = (k a (s, g)).2.2 := by
  have h1 := hf s g hs
  have h2 := (hn s g g).2.2
  rw [Py.bind_apply]
  rcases hx : f (s, g) with ⟨_ | a', s1, g1⟩ <;> rw [hx] at h1 h2 ha <;> cases ha
  dsimp only at h1 h2
  subst h2
  exact ⟨(hk a s s1 g1 h1).1.symm, (hk a s s1 g1 h1).2.2.symm⟩

theorem bincount_single {z : Int} (hz : 0 ≤ z) : bincount [z] = .ok [(z, 1)] := by
  obtain ⟨l, hl⟩ := bincount_nonneg (zs := [z]) (by simpa using hz)
  obtain ⟨h1, h2, -⟩ := bincount_ok hl
  rw [hl]
  rcases l with _ | ⟨⟨z1, n1⟩, l⟩
  · simp at h1
  · obtain ⟨h3, h4⟩ := h2 _ List.mem_cons_self
    have h4 : z1 = z := by simpa using h4
    have h3 : n1 ≠ 0 := h3
    rcases l with _ | ⟨⟨z2, n2⟩, l⟩
    · simp at h1
      rw [h4, h1]
    · have h5 : n2 ≠ 0 := (h2 (z2, n2) (by simp)).1
      simp only [List.map_cons, List.sum_cons, List.length_cons, List.length_nil] at h1
      omega

section
variable {A : Type} {AI : Iface A} {I : Iface S} {MA : Sem A} {M : Sem S} {R : Arr A S}
  {m : RowMix A} {r : RowId} {supp : List Int} {w : Int → ℝ} {C : Int → S} {OK : Var → Val → Prop}

/-- The sample of one cluster. -/
theorem mixOne_law (LR : ArrLaws AI I MA M R) {k : Int} (hi : MA.Inv m.array)
    (hx : R.x m.array = m.indexer) (hxo : m.indexer ∉ AI.outputs m.array) {c : S}
    (hc : R.get m.array (.num (k : ℚ)) = some c)
    {t : List Var} (ht : ∀ v ∈ t, v = m.indexer ∨ v ∈ AI.outputs m.array) {cs : Dict Var Val}
    {N : Option Nat} (hN : N = none ∨ N = some 1) {a : Var → Int} {q : ENNReal}
    (h0 : onlyVars (AI.outputs m.array) t = [] → q = 1)
    (hE : onlyVars (AI.outputs m.array) t ≠ [] → ∀ g out, (I.simulate r (onlyVars (AI.outputs m.array) t)
      (only (AI.outputs m.array) cs) [] N (c, g)).1 = .ok out →
      ExactSamples N (onlyVars (AI.outputs m.array) t) out)
    (h : onlyVars (AI.outputs m.array) t ≠ [] → HasChance μ (runs (I.simulate r
      (onlyVars (AI.outputs m.array) t) (only (AI.outputs m.array) cs) [] N) c)
      (onlyVars (AI.outputs m.array) t) a q) :
    HasChance μ (runs (RowMix.simulateOne AI r t cs [] N (.num (k : ℚ))) m) t a
      (if m.indexer ∈ t ∧ a m.indexer ≠ k then 0 else q) := by
  classical
  let f0 : Rng → Except Err SimOut × Rng := fun g =>
    if onlyVars (AI.outputs m.array) t = [] then (.ok (noValues N), g)
    else runs (I.simulate r (onlyVars (AI.outputs m.array) t) (only (AI.outputs m.array) cs) [] N) c g
  have hf0 : HasChance μ f0 (onlyVars (AI.outputs m.array) t) a q := by
    by_cases hT : onlyVars (AI.outputs m.array) t = []
    · have := HasChance.const (μ := μ) (f := f0) (t := onlyVars (AI.outputs m.array) t) (a := a) (b := True)
        (fun g => by
          have : f0 g = (.ok (noValues N), g) := if_pos hT
          rw [this]
          refine ⟨iff_true_intro ?_, rfl⟩
          obtain ⟨s, hs⟩ := exact_single hN (exact_noValues N)
          exact ⟨_, s, rfl, hs, by rw [hT]; simp⟩)
      rw [h0 hT]
      simpa using this
    · refine (h hT).congr fun g => ?_
      have : f0 g = runs (I.simulate r (onlyVars (AI.outputs m.array) t)
        (only (AI.outputs m.array) cs) [] N) c g := if_neg hT
      rw [this]
      exact ⟨Iff.rfl, rfl⟩
  have hex : ∀ g out, (f0 g).1 = .ok out → ExactSamples N (onlyVars (AI.outputs m.array) t) out := by
    intro g out ho
    by_cases hT : onlyVars (AI.outputs m.array) t = []
    · have : f0 g = (.ok (noValues N), g) := if_pos hT
      rw [this] at ho
      cases ho
      rw [hT]
      exact exact_noValues N
    · have : f0 g = runs (I.simulate r (onlyVars (AI.outputs m.array) t)
        (only (AI.outputs m.array) cs) [] N) c g := if_neg hT
      rw [this] at ho
      exact hE hT g out ho
  have htail : ∀ (st : RowMix A × Rng) (out0 : SimOut),
      ExactSamples N (onlyVars (AI.outputs m.array) t) out0 →
      (Hits t a ((if m.indexer ∈ t then
      match N, out0 with
      | none, .one s => (Pure.pure (SimOut.one (Dict.set s m.indexer (.num (k : ℚ)))) : Py (RowMix A × Rng) SimOut)
      | some _, .many l => Pure.pure (.many (l.map fun s => Dict.set s m.indexer (.num (k : ℚ))))
      | none, .many _ => Py.throw .typeError
      | some _, .one _ => Py.throw .typeError
      else Pure.pure out0) st).1 ↔ Hits (onlyVars (AI.outputs m.array) t) a (.ok out0) ∧
        ¬ (m.indexer ∈ t ∧ a m.indexer ≠ k)) ∧
      ((if m.indexer ∈ t then
      match N, out0 with
      | none, .one s => (Pure.pure (SimOut.one (Dict.set s m.indexer (.num (k : ℚ)))) : Py (RowMix A × Rng) SimOut)
      | some _, .many l => Pure.pure (.many (l.map fun s => Dict.set s m.indexer (.num (k : ℚ))))
      | none, .many _ => Py.throw .typeError
      | some _, .one _ => Py.throw .typeError
      else Pure.pure out0) st).2.2 = st.2 := by
    intro st out0 he
    obtain ⟨s, hs⟩ := exact_single hN he
    have h0 : Hits (onlyVars (AI.outputs m.array) t) a (.ok out0) ↔
        ∀ v ∈ onlyVars (AI.outputs m.array) t, Dict.get? s v = some (.num (a v : ℚ)) := by
      constructor
      · rintro ⟨o, s', h1, h2, h3⟩
        cases h1
        rw [hs] at h2
        cases h2
        exact h3
      · exact fun h => ⟨out0, s, rfl, hs, h⟩
    by_cases hT : m.indexer ∈ t
    · rw [if_pos hT]
      have key : ∀ out, samplesOf out = [Dict.set s m.indexer (.num (k : ℚ))] →
          (Hits t a (.ok out) ↔ Hits (onlyVars (AI.outputs m.array) t) a (.ok out0) ∧
            ¬ (m.indexer ∈ t ∧ a m.indexer ≠ k)) := by
        intro out ho
        rw [h0]
        constructor
        · rintro ⟨o, s', h1, h2, h3⟩
          cases h1
          rw [ho] at h2
          cases h2
          refine ⟨fun v hv => ?_, ?_⟩
          · obtain ⟨hv1, hv2⟩ := mem_onlyVars.1 hv
            have := h3 v hv1
            rwa [Dict.get?_set, if_neg (by rintro rfl; exact hxo hv2)] at this
          · rintro ⟨-, h4⟩
            have := h3 _ hT
            rw [Dict.get?_set, if_pos rfl] at this
            apply h4
            have : ((k : Int) : ℚ) = (a m.indexer : ℚ) := by simpa using this
            exact_mod_cast this.symm
        · rintro ⟨h1, h2⟩
          refine ⟨out, _, rfl, ho, fun v hv => ?_⟩
          rw [Dict.get?_set]
          rcases ht v hv with rfl | hv'
          · rw [if_pos rfl]
            have : a m.indexer = k := by
              by_contra h4
              exact h2 ⟨hT, h4⟩
            rw [this]
          · rw [if_neg (by rintro rfl; exact hxo hv')]
            exact h1 v (mem_onlyVars.2 ⟨hv, hv'⟩)
      rcases N with _ | n <;> rcases out0 with s0 | l
      · cases hs
        exact ⟨key _ rfl, rfl⟩
      · exact he.1.elim
      · exact he.1.elim
      · have hs : l = [s] := hs
        subst hs
        exact ⟨key _ rfl, rfl⟩
    · rw [if_neg hT]
      refine ⟨?_, rfl⟩
      have : ¬ (m.indexer ∈ t ∧ a m.indexer ≠ k) := fun h => hT h.1
      rw [and_iff_left this, h0]
      constructor
      · rintro ⟨o, s', h1, h2, h3⟩
        cases h1
        rw [hs] at h2
        cases h2
        exact fun v hv => h3 v (mem_onlyVars.1 hv).1
      · intro h
        refine ⟨_, s, rfl, hs, fun v hv => h v (mem_onlyVars.2 ⟨hv, (ht v hv).resolve_left ?_⟩)⟩
        rintro rfl
        exact hT hv
  have hmain : ∀ g, (Hits t a (runs (RowMix.simulateOne AI r t cs [] N (.num (k : ℚ))) m g).1 ↔
      Hits (onlyVars (AI.outputs m.array) t) a (f0 g).1 ∧ ¬ (m.indexer ∈ t ∧ a m.indexer ≠ k)) ∧
      (runs (RowMix.simulateOne AI r t cs [] N (.num (k : ℚ))) m g).2 = (f0 g).2 := by
    intro g
    unfold runs RowMix.simulateOne
    rw [Py.get_bind]
    dsimp only
    by_cases hT : onlyVars (AI.outputs m.array) t = []
    · have hf : f0 g = (.ok (noValues N), g) := if_pos hT
      have he := hex g (noValues N) (by rw [hf])
      rw [if_neg (not_not.2 (show getIntersectionL (m.outputsX AI) t = [] from hT)), hf]
      rcases N with _ | n
      · exact htail (m, g) (noValues none) he
      · exact htail (m, g) (noValues (some n)) he
    · have hf : f0 g = runs (I.simulate r (onlyVars (AI.outputs m.array) t)
        (only (AI.outputs m.array) cs) [] N) c g := if_neg hT
      rw [if_pos (show ¬ getIntersectionL (m.outputsX AI) t = [] from hT)]
      rw [show merged (getIntersection (m.outputsX AI) []) [(m.indexer, Val.num (k : ℚ))] =
        [(R.x m.array, Val.num (k : ℚ))] by rw [hx]; rfl]
      rw [Py.bind_apply, onArray_eq, LR.simulate _ _ _ _ _ _ _ _ hi hc, hf]
      have he := hex g
      rw [hf] at he
      unfold runs at he ⊢
      rcases hs : I.simulate r (onlyVars (AI.outputs m.array) t) (only (AI.outputs m.array) cs) [] N
        (c, g) with ⟨e | o, st⟩
      · have hs' : I.simulate r (getIntersectionL (m.outputsX AI) t) (getIntersection (m.outputsX AI) cs) [] N
          (c, g) = (.error e, st) := hs
        rw [hs']
        refine ⟨⟨?_, ?_⟩, rfl⟩
        · rintro ⟨o, s, h, -⟩
          cases h
        · rintro ⟨⟨o, s, h, -⟩, -⟩
          cases h
      · have hs' : I.simulate r (getIntersectionL (m.outputsX AI) t) (getIntersection (m.outputsX AI) cs) [] N
          (c, g) = (.ok o, st) := hs
        rw [hs']
        rw [hs] at he
        exact htail _ o (he o rfl)
  by_cases hb : m.indexer ∈ t ∧ a m.indexer ≠ k
  · rw [if_pos hb]
    intro B hB
    have : {g | Hits t a (runs (RowMix.simulateOne AI r t cs [] N (.num (k : ℚ))) m g).1 ∧
        (runs (RowMix.simulateOne AI r t cs [] N (.num (k : ℚ))) m g).2 ∈ B} = ∅ := by
      refine Set.eq_empty_of_forall_notMem fun g hg => ?_
      exact (((hmain g).1.1 hg.1).2 hb)
    rw [this]
    simp
  · rw [if_neg hb]
    refine hf0.congr fun g => ⟨?_, (hmain g).2⟩
    rw [(hmain g).1]
    exact and_iff_left hb

/-- The steps of `simulate` after a single cluster is drawn. -/
theorem shares_single {t : List Var} {cs : Dict Var Val} {N : Option Nat}
    (hN : N = none ∨ N = some 1) {z : Int} (hz : 0 ≤ z) {a : Var → Int}
    (hE : ∀ g out, (RowMix.simulateOne AI r t cs [] (some 1) (.num (z : ℚ)) (m, g)).1 = .ok out →
      ExactSamples (some 1) t out) (g : Rng) :
    (Hits t a (runs (RowMix.shares AI r t cs [] N [z]) m g).1 ↔
      Hits t a (runs (RowMix.simulateOne AI r t cs [] (some 1) (.num (z : ℚ))) m g).1) ∧
    (runs (RowMix.shares AI r t cs [] N [z]) m g).2 =
      (runs (RowMix.simulateOne AI r t cs [] (some 1) (.num (z : ℚ))) m g).2 := by
  unfold runs RowMix.shares
  rw [Py.lift_bind, bincount_single hz]
  dsimp only
  rw [Py.bind_apply]
  have he := hE g
  rcases hs : RowMix.simulateOne AI r t cs [] (some 1) (.num (z : ℚ)) (m, g) with ⟨e | o, st⟩
  · have : Py.mapL (fun zn : Int × Nat => RowMix.simulateOne AI r t cs [] (some zn.2) (.num (zn.1 : ℚ)))
        [(z, 1)] (m, g) = (.error e, st) := by
      show (RowMix.simulateOne AI r t cs [] (some 1) (.num (z : ℚ)) >>= fun b => Py.mapL _ [] >>= fun bs =>
        (Pure.pure (b :: bs) : Py _ _)) (m, g) = _
      rw [Py.bind_apply, hs]
    rw [this]
    refine ⟨⟨?_, ?_⟩, rfl⟩
    · rintro ⟨o, s, h, -⟩
      cases h
    · rintro ⟨o, s, h, -⟩
      cases h
  · have : Py.mapL (fun zn : Int × Nat => RowMix.simulateOne AI r t cs [] (some zn.2) (.num (zn.1 : ℚ)))
        [(z, 1)] (m, g) = (.ok [o], st) := by
      show (RowMix.simulateOne AI r t cs [] (some 1) (.num (z : ℚ)) >>= fun b => Py.mapL _ [] >>= fun bs =>
        (Pure.pure (b :: bs) : Py _ _)) (m, g) = _
      rw [Py.bind_apply, hs]
      rfl
    rw [this]
    rw [hs] at he
    have he := he o rfl
    rcases o with s | l
    · exact he.1.elim
    · obtain ⟨s, hs⟩ := exact_single (.inr rfl) he
      have hs : l = [s] := hs
      subst hs
      rcases hN with rfl | rfl
      · refine ⟨?_, rfl⟩
        constructor
        · rintro ⟨o, s', h1, h2, h3⟩
          cases h1
          cases h2
          exact ⟨_, s, rfl, rfl, h3⟩
        · rintro ⟨o, s', h1, h2, h3⟩
          cases h1
          cases h2
          exact ⟨_, s, rfl, rfl, h3⟩
      · exact ⟨Iff.rfl, rfl⟩

/-- What `simulate` does for a row that is not held, after the weights. -/
theorem RowMix.simulateFresh_run (LA : Laws AI MA) (hm : RowMix.E0 MA m m)
    (hs : m.rowDivide.support = .ok supp) {t : List Var} {cs i : Dict Var Val} {N : Option Nat} {g : Rng}
    {ws : List Fl} (hw : (supp.mapM fun z : Int =>
      (RowMix.logpdf AI r [(m.indexer, .num z)] cs i (m, g)).1) = .ok ws) :
    runs (RowMix.simulateFresh AI r t cs i N) m g =
      runs (Py.onSnd (logPflipMany ws (drawn N)) >>= fun is => RowMix.shares AI r t cs i N
        (is.map fun i : Nat => supp.getD i 0)) m g := by
  have hrel : ∀ zs, Py.Rel (RowMix.E0 MA) (RowMix.shares AI r t cs i N zs)
      (RowMix.shares AI r t cs i N zs) := by
    intro zs
    refine (Py.Rel.lift _).bind fun _ =>
      (Py.Rel.mapL (fun _ => RowMix.rel_simulateOne LA _ _ _ _ _ _) _).bind fun _ =>
      (Py.Rel.lift _).bind fun _ => ?_
    split
    · split
      · exact Py.Rel.throw _
      · exact Py.Rel.pure _
    · exact Py.Rel.pure _
  have h1 : RowMix.simulateFresh AI r t cs i N (m, g) = (Py.mapL (fun z : Int =>
      RowMix.logpdf AI r [(m.indexer, .num (z : ℚ))] cs i) supp >>= fun ws =>
      Py.onSnd (logPflipMany ws (drawn N)) >>= fun is => RowMix.shares AI r t cs i N
        (is.map fun i : Nat => supp.getD i 0)) (m, g) := by
    unfold RowMix.simulateFresh
    rw [Py.get_bind]
    dsimp only
    rw [Py.lift_bind, hs]
    rcases N with _ | n <;> rfl
  have h2 : (Py.mapL (fun z : Int => RowMix.logpdf AI r [(m.indexer, .num (z : ℚ))] cs i) supp (m, g)).1 =
      .ok ws := by
    rw [Py.val_mapL (fun _ => RowMix.noDraw_logpdf LA _ _ _ _) (fun _ => RowMix.keeps_logpdf LA _ _ _ _)
      (fun _ => RowMix.rel_logpdf LA _ _ _ _) hm, hw]
  have h3 := Py.run_bind (E := RowMix.E0 MA) (Py.NoDraw.mapL (fun _ => RowMix.noDraw_logpdf LA _ _ _ _) _)
    (RowMix.keeps_mapL LA (fun _ => RowMix.keeps_logpdf LA _ _ _ _) _)
    (k := fun ws => Py.onSnd (logPflipMany ws (drawn N)) >>= fun is => RowMix.shares AI r t cs i N
        (is.map fun i : Nat => supp.getD i 0))
    (fun _ => (Py.Rel.onSnd _).bind fun _ => hrel _) hm h2
  unfold runs
  rw [h1]
  exact Prod.ext h3.1 h3.2

/-- The row simulated by a mixture. -/
theorem MixAt.law (hμ : IsDraw μ) (L : Laws I M) (LA : Laws AI MA) (LR : ArrLaws AI I MA M R)
    (h : MixAt AI I MA R m r supp w C OK) (hnd : supp.Nodup) (hnn : ∀ k ∈ supp, 0 ≤ k) {outs : List Var}
    {t : List Var} {cs : Dict Var Val} {a : Var → Int}
    (hq : IsQuery outs (mixOK m.indexer supp OK) (valued t a) cs) (hJ : mixJ AI I m r supp w C cs ≠ 0)
    (ht : ∀ v ∈ t, v = m.indexer ∨ v ∈ AI.outputs m.array)
    (hE : ∀ k ∈ supp, (compLp AI I m r C k cs []).exp ≠ 0 → onlyVars (AI.outputs m.array) t ≠ [] →
      ∀ N g out, (N = none ∨ N = some 1) → (I.simulate r (onlyVars (AI.outputs m.array) t)
        (only (AI.outputs m.array) cs) [] N (C k, g)).1 = .ok out →
        ExactSamples N (onlyVars (AI.outputs m.array) t) out)
    (hcomp : ∀ k ∈ supp, (compLp AI I m r C k cs []).exp ≠ 0 → onlyVars (AI.outputs m.array) t ≠ [] →
      ∀ N, (N = none ∨ N = some 1) → HasChance μ (runs (I.simulate r (onlyVars (AI.outputs m.array) t)
        (only (AI.outputs m.array) cs) [] N) (C k)) (onlyVars (AI.outputs m.array) t) a
        (ENNReal.ofReal (compLp AI I m r C k (valued t a) cs).exp))
    {N : Option Nat} (hN : N = none ∨ N = some 1) :
    HasChance μ (runs (RowMix.simulate AI r t cs [] N) m) t a
      (ENNReal.ofReal (mixJ AI I m r supp w C (valued t a ++ cs) / mixJ AI I m r supp w C cs)) := by
  classical
  have honly : only (AI.outputs m.array) (valued t a) = valued (onlyVars (AI.outputs m.array) t) a := by
    unfold only valued onlyVars
    rw [List.filter_map]
    rfl
  have hkeys : Dict.keys (valued t a) = t := by
    unfold valued Dict.keys
    rw [List.map_map]
    exact List.map_id _
  have hget : ∀ v, Dict.get? (valued t a) v = if v ∈ t then some (.num (a v : ℚ)) else none := by
    intro v
    clear * -
    induction t with
    | nil => rfl
    | cons u t ih =>
      unfold valued at ih ⊢
      rw [List.map_cons, Dict.get?_cons, ih]
      by_cases hu : u = v
      · subst hu
        simp
      · rw [if_neg hu]
        have : v ≠ u := Ne.symm hu
        simp [this]
  have hone : ∀ k ∈ supp, (compLp AI I m r C k cs []).exp ≠ 0 → ∀ N, (N = none ∨ N = some 1) →
      HasChance μ (runs (RowMix.simulateOne AI r t cs [] N (.num (k : ℚ))) m) t a
        (if m.indexer ∈ t ∧ a m.indexer ≠ k then 0 else
          ENNReal.ofReal (compLp AI I m r C k (valued t a) cs).exp) := by
    intro k hk hk0 N hN
    refine mixOne_law LR h.inv h.x_eq h.x_out (h.get k hk) ht hN (fun h0 => ?_)
      (fun hT g out => hE k hk hk0 hT N g out hN) fun hT => hcomp k hk hk0 hT N hN
    unfold compLp
    rw [honly, h0]
    rw [show valued [] a = [] from rfl, lp_nil, Fl.exp_zero, ENNReal.ofReal_one]
  have hJz : ∀ k ∈ supp, mixJz AI I m r w C k (valued t a ++ cs) =
      mixJz AI I m r w C k cs * (compLp AI I m r C k (valued t a) cs).exp := by
    intro k hk
    unfold mixJz
    rw [h.comp_ratio hq hk, Fl.exp_add (h.comp_isLogP hq hk) (h.comp_isLogP hq.right hk)]
    ring
  have happ := Dict.get?_append (valued t a) cs m.indexer
  rw [hget] at happ
  unfold RowMix.simulate
  rcases hz : Dict.get? cs m.indexer with _ | z
  · have hcn := (Dict.get?_eq_none_iff _ _).1 hz
    have hqc : IsQuery outs (mixOK m.indexer supp OK) [] cs :=
      ⟨by simpa [Dict.keys] using hq.right.nodup, fun kv hkv => hq.out kv (List.mem_append_right _ hkv),
        fun kv hkv => hq.ok kv (List.mem_append_right _ hkv)⟩
    obtain ⟨W, -, w2, w3, w4, w5⟩ := h.weights L LA LR hqc hcn hJ (fun _ => ⟨0, 0⟩)
    have hW : ∀ k ∈ supp, (W k).exp = mixJz AI I m r w C k cs / mixJ AI I m r supp w C cs := by
      intro k hk
      have hq' : IsQuery (m.indexer :: outs) (mixOK m.indexer supp OK) [(m.indexer, .num (k : ℚ))] cs := by
        have hr := hqc
        refine ⟨?_, ?_, ?_⟩
        · have := hr.nodup
          simp only [Dict.keys, List.map_cons, List.map_nil, List.nil_append, List.singleton_append,
            List.nodup_cons] at this ⊢
          exact ⟨hcn, this⟩
        · intro kv hkv
          rcases List.mem_cons.1 hkv with rfl | hkv
          · exact List.mem_cons_self
          · exact List.mem_cons_of_mem _ (hr.out kv hkv)
        · intro kv hkv
          rcases List.mem_cons.1 hkv with rfl | hkv
          · exact ⟨fun _ => ⟨k, hk, rfl⟩, fun h => absurd rfl h⟩
          · exact hr.ok kv hkv
      obtain ⟨y, e1, e2, e3⟩ := h.ratio L LA LR hq' (fun _ => ⟨0, 0⟩) hJ
      rw [w5 k hk] at e1
      cases e1
      rw [e3]
      congr 1
      unfold mixJ
      rw [List.singleton_append, Dict.get?_cons, if_pos rfl]
      dsimp only
      unfold mixJz compLp
      rw [h.only_cluster, clusterOf_int]
    have w1 : ∀ g, (supp.mapM fun z : Int => (RowMix.logpdf AI r [(m.indexer, .num z)] cs [] (m, g)).1) =
        .ok (supp.map W) := by
      intro g
      clear * - w5
      induction supp with
      | nil => rfl
      | cons k l ih =>
        rw [List.mapM_cons, w5 k (by simp), ih fun k hk => w5 k (by simp [hk])]
        rfl
    have hlogp : ∀ x ∈ supp.map W, x.IsLogP := by
      intro x hx
      obtain ⟨k, hk, rfl⟩ := List.mem_map.1 hx
      exact w2 k hk
    have hps : ((supp.map W).map Fl.exp).sum = 1 := by
      rw [List.map_map]
      exact w3
    have hsd : ∀ i (hi : i < supp.length), supp.getD i 0 = supp[i] := fun i hi => by
      rw [List.getD_eq_getElem?_getD, List.getElem?_eq_getElem hi, Option.getD_some]
    have hpd : ∀ i (hi : i < supp.length), ((supp.map W).map Fl.exp).getD i 0 = (W (supp.getD i 0)).exp := by
      intro i hi
      rw [hsd i hi]
      simp [List.getD_eq_getElem?_getD, List.getElem?_eq_getElem hi]
    have hlaw := choice_law hμ (t := t) (a := a) (ps := (supp.map W).map Fl.exp)
      (fun p hp => by obtain ⟨x, _, rfl⟩ := List.mem_map.1 hp; exact exp_nonneg x)
      (by rw [hps]; norm_num)
      (f := fun i => runs (RowMix.simulateOne AI r t cs [] (some 1) (.num (supp.getD i 0 : ℚ))) m)
      (q := fun i => if m.indexer ∈ t ∧ a m.indexer ≠ supp.getD i 0 then 0 else
          ENNReal.ofReal (compLp AI I m r C (supp.getD i 0) (valued t a) cs).exp)
      (fun i hi hi0 => by
        have hi : i < supp.length := by simpa using hi
        have hk : supp.getD i 0 ∈ supp := by rw [hsd i hi]; exact List.getElem_mem _
        rw [hpd i hi] at hi0
        exact hone _ hk (w4 _ hk hi0) (some 1) (.inr rfl))
      (F := runs (RowMix.simulateFresh AI r t cs [] N) m)
      (fun g i g' hg => by
        rw [RowMix.simulateFresh_run LA h.refl h.support (w1 g)]
        have hd : drawn N = 1 := by rcases hN with rfl | rfl <;> rfl
        have e1 : logPflipIdx (supp.map W) g = (.ok i, g') := by rw [logPflipIdx_eq _ hlogp, hg]
        have : Py.onSnd (S := RowMix A) (logPflipMany (supp.map W) (drawn N)) (m, g) =
            (.ok [i], (m, g')) := by
          rw [hd]
          unfold Py.onSnd logPflipMany
          rw [Py.bind_apply, e1]
          rfl
        have e2 : runs (Py.onSnd (logPflipMany (supp.map W) (drawn N)) >>= fun is =>
            RowMix.shares AI r t cs [] N (is.map fun i : Nat => supp.getD i 0)) m g =
            runs (RowMix.shares AI r t cs [] N [supp.getD i 0]) m g' := by
          unfold runs
          rw [Py.bind_apply, this]
          rfl
        rw [e2]
        have hi : i < supp.length := by
          have := pflipIdx_lt (l := (supp.map W).map Fl.exp) (g := g) (i := i) (by rw [hg])
          simpa using this
        have hk : supp.getD i 0 ∈ supp := by rw [hsd i hi]; exact List.getElem_mem _
        have hi0 : (W (supp.getD i 0)).exp ≠ 0 := by
          rw [← hpd i hi]
          obtain ⟨j, g'', h1, -, h3⟩ := pflipIdx_ok ((supp.map W).map Fl.exp)
            (by intro h0; rw [h0] at hps; simp at hps)
            (fun p hp => by obtain ⟨x, _, rfl⟩ := List.mem_map.1 hp; exact exp_nonneg x)
            (by rw [hps]; norm_num) g
          rw [hg] at h1
          cases h1
          exact h3.ne'
        refine shares_single hN (hnn _ hk) (fun g out ho => ?_) g'
        exact (mixSimulateOne_exact LR h.inv h.x_eq (h.get _ hk) ht (fun hT o ho =>
          hE _ hk (w4 _ hk hi0) hT (some 1) g o (.inr rfl) ho) ho).1)
    have hfinal : ENNReal.ofReal (mixJ AI I m r supp w C (valued t a ++ cs) / mixJ AI I m r supp w C cs) =
        ∑ i ∈ Finset.range ((supp.map W).map Fl.exp).length,
          ENNReal.ofReal (((supp.map W).map Fl.exp).getD i 0 / ((supp.map W).map Fl.exp).sum) *
          (if m.indexer ∈ t ∧ a m.indexer ≠ supp.getD i 0 then 0 else
          ENNReal.ofReal (compLp AI I m r C (supp.getD i 0) (valued t a) cs).exp) := by
      have hterm : ∀ i ∈ Finset.range ((supp.map W).map Fl.exp).length,
          ENNReal.ofReal (((supp.map W).map Fl.exp).getD i 0 / ((supp.map W).map Fl.exp).sum) *
          (if m.indexer ∈ t ∧ a m.indexer ≠ supp.getD i 0 then 0 else
          ENNReal.ofReal (compLp AI I m r C (supp.getD i 0) (valued t a) cs).exp) =
          ENNReal.ofReal (if m.indexer ∈ t ∧ a m.indexer ≠ supp.getD i 0 then 0 else
            mixJz AI I m r w C (supp.getD i 0) (valued t a ++ cs) / mixJ AI I m r supp w C cs) := by
        intro i hi
        have hi : i < supp.length := by simpa using hi
        have hk : supp.getD i 0 ∈ supp := by rw [hsd i hi]; exact List.getElem_mem _
        rw [hpd i hi, hps, div_one, hW _ hk, hJz _ hk]
        split
        · simp
        · rw [← ENNReal.ofReal_mul' (exp_nonneg _)]
          congr 1
          ring
      rw [Finset.sum_congr rfl hterm, ← ENNReal.ofReal_sum_of_nonneg]
      · congr 1
        rw [show ((supp.map W).map Fl.exp).length = supp.length by simp]
        rw [sum_range_getD supp fun k => if m.indexer ∈ t ∧ a m.indexer ≠ k then 0 else
            mixJz AI I m r w C k (valued t a ++ cs) / mixJ AI I m r supp w C cs]
        by_cases hx : m.indexer ∈ t
        · rw [if_pos hx] at happ
          have e1 : mixJ AI I m r supp w C (valued t a ++ cs) =
              mixJz AI I m r w C (a m.indexer) (valued t a ++ cs) := by
            rw [mixJ, happ]
            dsimp only
            rw [clusterOf_int]
          have hk : a m.indexer ∈ supp := by
            obtain ⟨k, hk, hk'⟩ := (hq.ok (m.indexer, .num (a m.indexer : ℚ)) (by
              refine List.mem_append_left _ ?_
              exact List.mem_map.2 ⟨_, hx, rfl⟩)).1 rfl
            have : (a m.indexer : ℚ) = (k : ℚ) := by simpa using hk'
            have : a m.indexer = k := by exact_mod_cast this
            rwa [this]
          rw [e1]
          simp only [hx, true_and]
          generalize mixJ AI I m r supp w C cs = D
          clear * - hnd hk
          induction supp with
          | nil => cases hk
          | cons k l ih =>
            rw [List.map_cons, List.sum_cons]
            obtain ⟨hn1, hn2⟩ := List.nodup_cons.1 hnd
            by_cases hak : a m.indexer = k
            · rw [if_neg (not_not.2 hak), List.sum_eq_zero, add_zero, hak]
              intro x hx
              obtain ⟨k', hk', rfl⟩ := List.mem_map.1 hx
              rw [if_pos]
              rintro rfl
              exact hn1 (hak ▸ hk')
            · rw [if_pos hak, zero_add]
              exact ih hn2 ((List.mem_cons.1 hk).resolve_left hak)
        · rw [if_neg hx] at happ
          have e1 : mixJ AI I m r supp w C (valued t a ++ cs) =
              (supp.map fun k => mixJz AI I m r w C k (valued t a ++ cs)).sum := by
            rw [mixJ, happ]
            dsimp only
            rw [hz]
          rw [e1, ← sum_map_div]
          simp [hx]
      · intro i _
        have h1 : ∀ k u, 0 ≤ mixJz AI I m r w C k u := fun k u =>
          mul_nonneg (Real.exp_pos _).le (exp_nonneg _)
        have h2 : 0 ≤ mixJ AI I m r supp w C cs := by
          unfold mixJ
          rw [hz]
          refine List.sum_nonneg ?_
          intro x hx
          obtain ⟨k, -, rfl⟩ := List.mem_map.1 hx
          exact h1 k cs
        split
        · exact le_refl _
        · exact div_nonneg (h1 _ _) h2
    rw [hfinal]
    refine hlaw.congr fun g => ?_
    unfold runs
    rw [Py.get_bind]
    dsimp only
    rw [h.held]
    dsimp only
    rw [hz]
    exact ⟨Iff.rfl, rfl⟩
  · obtain ⟨k, hk, rfl⟩ := (hq.ok _ (List.mem_append_right _ (Dict.mem_of_get? hz))).1 rfl
    have hxt : m.indexer ∉ t := by
      intro hx
      have := hq.nodup
      rw [hkeys] at this
      exact (List.nodup_append.1 this).2.2 _ hx _ (Dict.mem_keys_of_get? hz) rfl
    have hk0 : (compLp AI I m r C k cs []).exp ≠ 0 := by
      intro h0
      apply hJ
      unfold mixJ
      rw [hz]
      dsimp only
      rw [clusterOf_int]
      unfold mixJz
      rw [h0, mul_zero]
    have e0 : mixJ AI I m r supp w C cs = mixJz AI I m r w C k cs := by
      rw [mixJ, hz]
      dsimp only
      rw [clusterOf_int]
    have e1 : mixJ AI I m r supp w C (valued t a ++ cs) = mixJz AI I m r w C k (valued t a ++ cs) := by
      rw [if_neg hxt] at happ
      rw [mixJ, happ]
      dsimp only
      rw [hz]
      dsimp only
      rw [clusterOf_int]
    have := hone k hk hk0 N hN
    rw [if_neg (fun h => hxt h.1)] at this
    rw [e1, hJz k hk, e0, mul_div_cancel_left₀ _ (by rw [← e0]; exact hJ)]
    refine this.congr fun g => ?_
    unfold runs
    rw [Py.get_bind]
    dsimp only
    rw [h.held]
    dsimp only
    rw [hz]
    dsimp only
    rw [Py.lift_bind, h.support]
    dsimp only
    rw [if_neg (not_not.2 ⟨k, hk, rfl⟩)]
    exact ⟨Iff.rfl, rfl⟩

end

/-! ## Models of any depth -/

theorem keys_valued (t : List Var) (a : Var → Int) : Dict.keys (valued t a) = t := by
  unfold valued Dict.keys
  rw [List.map_map]
  exact List.map_id _

theorem only_valued (l t : List Var) (a : Var → Int) :
    only l (valued t a) = valued (onlyVars l t) a := by
  unfold only valued onlyVars
  rw [List.filter_map]
  rfl

theorem SimAsk.valued {outs : List Var} {OK : Var → Val → Prop} {t : List Var} {cs : Dict Var Val}
    (h : SimAsk outs OK t cs) {a : Var → Int} (ha : ∀ v ∈ t, OK v (.num (a v : ℚ))) :
    IsQuery outs OK (Spec.valued t a) cs where
  nodup := by rw [keys_valued]; exact h.nodup
  out kv hkv := by
    rcases List.mem_append.1 hkv with hkv | hkv
    · obtain ⟨v, hv, rfl⟩ := List.mem_map.1 hkv
      exact h.out v hv
    · exact h.query.out kv hkv
  ok kv hkv := by
    rcases List.mem_append.1 hkv with hkv | hkv
    · obtain ⟨v, hv, rfl⟩ := List.mem_map.1 hkv
      exact ha v hv
    · exact h.query.ok kv hkv

theorem prim_chance {Z : List Var} (hμ : IsDraw μ) {p : Prim} {r : RowId} {t : List Var} {cs : Dict Var Val}
    (hreg : (primTab Z).Reg p) (hf : (primTab Z).Fresh p r) {OK : Var → Val → Prop}
    (ha : SimAsk p.outputs OK t cs) (hd : ∀ v ∈ t, v ∈ p.outputs → Discrete p) {N : Option Nat}
    (hN : N = none ∨ N = some 1) (a : Var → Int) :
    HasChance μ (p.simulate r t cs [] N) t a (ENNReal.ofReal (lp primI r p (valued t a) cs).exp) := by
  obtain ⟨o, ho⟩ := hreg.1.1.out
  have ht : t = [o] := by
    have hn : t.Nodup := ha.nodup.sublist (List.sublist_append_left ..)
    have h1 : ∀ v ∈ t, v = o := fun v hv => by simpa [ho] using ha.out v hv
    rcases t with _ | ⟨a, _ | ⟨b, t⟩⟩
    · exact absurd rfl ha.ne
    · rw [h1 a (by simp)]
    · have h2 := h1 a (by simp)
      have h3 := h1 b (by simp)
      subst h2
      rw [h3] at hn
      simp at hn
  have hc : cs = [] := by
    rcases cs with _ | ⟨kv, cs⟩
    · rfl
    · have h1 := ha.query.out kv (by simp)
      rw [ho, List.mem_singleton] at h1
      have h2 := ha.nodup
      rw [ht] at h2
      simp [Dict.keys, h1] at h2
  subst ht hc
  have hr := primTab_fresh hreg hf
  have hlp : lp primI r p (valued [o] a) [] = p.pred (a o : ℚ) := by
    refine lp_of_ok (by simp [valued]) ?_
    exact Prim.logpdf_num hreg.1.1 hreg.1.2 ho ((Dict.get?_eq_none_iff _ _).1 hr) (a o : ℚ)
  rw [hlp]
  exact prim_law hμ (hd o (by simp) (by simp [ho])) hreg.1 ho hr hN a

theorem exp_sum_prod {α : Type} {l : List α} {f : α → Fl} (h : ∀ x ∈ l, (f x).IsLogP) :
    ENNReal.ofReal ((l.map f).sum).exp = (l.map fun x => ENNReal.ofReal (f x).exp).prod := by
  induction l with
  | nil =>
    rw [List.map_nil, List.map_nil, List.sum_nil, List.prod_nil, Fl.exp_zero, ENNReal.ofReal_one]
  | cons x l ih =>
    have hl : ∀ y ∈ l, (f y).IsLogP := fun y hy => h y (by simp [hy])
    rw [List.map_cons, List.map_cons, List.sum_cons, List.prod_cons, Fl.exp_add (h x (by simp))
      (Fl.isLogP_sum (by
        intro y hy
        obtain ⟨z, hz, rfl⟩ := List.mem_map.1 hy
        exact hl z hz)), ENNReal.ofReal_mul (exp_nonneg _), ih hl]

/-- The row a model of any depth simulates. -/
theorem cgpm_law (hμ : IsDraw μ) (Z : List Var) : (n : Nat) → ∀ (c : Cgpm n) (r : RowId) (t : List Var)
    (cs : Dict Var Val) (N : Option Nat) (a : Var → Int), (cgpmTab Z n).Reg c → (cgpmTab Z n).Fresh c r →
    SimAsk ((cgpmI n).outputs c) (Askable n c) t cs → lp (cgpmI n) r c cs [] ≠ .ninf →
    (N = none ∨ N = some 1) → (∀ v ∈ t, DiscreteAt n c v) → (∀ v ∈ t, Askable n c v (.num (a v : ℚ))) →
    HasChance μ (runs ((cgpmI n).simulate r t cs [] N) c) t a
      (ENNReal.ofReal (lp (cgpmI n) r c (valued t a) cs).exp)
  | 0, p, r, t, cs, N, a, hreg, hf, ha, _, hN, hd, _ =>
    (prim_chance (Z := Z) hμ hreg hf ha hd hN a).congr fun _ => ⟨Iff.rfl, rfl⟩
  | n + 1, .prim p, r, t, cs, N, a, hreg, hf, ha, _, hN, hd, _ =>
    (prim_chance (Z := Z) hμ hreg hf ha hd hN a).congr fun _ => ⟨Iff.rfl, rfl⟩
  | n + 1, .product p, r, t, cs, N, a, hreg, hf, ha, hp, hN, hd, hv => by
    have hreg : (productTab (cgpmI n) (cgpmTab Z n)).Reg p := hreg
    have hfr := product_fresh hf
    have hq := ha.valued hv
    have hcs : ∀ c ∈ p.cgpms, lp (cgpmI n) r c (only ((cgpmI n).outputs c) cs) [] ≠ .ninf := by
      intro c hc h0
      have hlp := (sameLp_product p r).lp
      have hall : ∀ b ∈ p.cgpms, (lp (cgpmI n) r b (only ((cgpmI n).outputs b) cs) []).IsLogP :=
        fun b hb => ((cgpmDLaws Z n).wdens b r (hreg.1 b hb) (hfr b hb)).isLogP0
          ((ha.query.right.only _).mono (ha.query.right.only _).out fun kv hkv =>
            ha.query.ok kv (by
              have : kv ∈ only ((cgpmI n).outputs b) cs := by simpa [only] using hkv
              simpa using (List.mem_filter.1 this).1) b hb)
      rw [hlp, product_lp' (c := []) (cgpmLaws n) hall] at hp
      have h1 := Fl.isLogP_sum (l := p.cgpms.map fun b =>
        lp (cgpmI n) r b (only ((cgpmI n).outputs b) cs) []) (by
          intro x hx
          obtain ⟨b, hb, rfl⟩ := List.mem_map.1 hx
          exact hall b hb)
      have hfin : ∀ x : Fl, x ≠ .ninf → x.IsLogP → ∃ y, x = .fin y := by
        rintro (_ | _ | _ | x) hp h1
        · exact False.elim h1
        · exact absurd rfl hp
        · exact False.elim h1
        · exact ⟨x, rfl⟩
      have hfin := hfin _ hp h1
      rw [← Fl.sum_eq] at hfin
      obtain ⟨y, hy⟩ := (Fl.sum_fin_iff _).1 hfin _ (List.mem_map.2 ⟨c, hc, rfl⟩)
      have hy := h0.symm.trans hy
      cases hy
    have hblock : ∀ b ∈ p.cgpms, (lp (cgpmI n) r b (only ((cgpmI n).outputs b) (valued t a))
        (only ((cgpmI n).outputs b) cs)).IsLogP := fun b hb =>
      ((cgpmDLaws Z n).wdens b r (hreg.1 b hb) (hfr b hb)).isLogP _ _
        ((hq.only _).mono (hq.only _).out fun kv hkv => hq.ok kv (by
          rcases List.mem_append.1 hkv with hkv | hkv
          · exact List.mem_append_left _ (List.mem_filter.1 hkv).1
          · exact List.mem_append_right _ (List.mem_filter.1 hkv).1) b hb) (hcs b hb)
    rw [(sameLp_product p r).lp, product_lp' (cgpmLaws n) hblock, exp_sum_prod hblock]
    have hlaw := product_law (μ := μ) (cgpmSim Z n) (p := p) (Product.validate_nodup hreg.2.1)
      (fun c hc => ⟨hreg.1 c hc, hfr c hc⟩) (t := t) ha.out ha.ne (cs := cs) hN (a := a)
      (q := fun b => ENNReal.ofReal (lp (cgpmI n) r b (only ((cgpmI n).outputs b) (valued t a))
        (only ((cgpmI n).outputs b) cs)).exp)
      (fun c hc hT => by
        rw [only_valued, hT, show valued [] a = [] from rfl, lp_nil, Fl.exp_zero, ENNReal.ofReal_one])
      (fun c hc hT => by
        rw [only_valued]
        exact cgpm_law hμ Z n c r _ _ N a (hreg.1 c hc) (hfr c hc)
          (ha.part hT fun kv hkv _ => ha.query.ok kv hkv c hc) (hcs c hc) hN
          (fun v hv' => hd v (mem_onlyVars.1 hv').1 c hc) fun v hv' => hv v (mem_onlyVars.1 hv').1 c hc)
    exact hlaw.congr fun _ => ⟨Iff.rfl, rfl⟩
  | n + 1, .finArray a, _, _, _, _, _, hreg, _, _, _, _, _, _ => hreg.elim
  | n + 1, .flexArray a, _, _, _, _, _, hreg, _, _, _, _, _, _ => hreg.elim
  | n + 1, .finMix m, r, t, cs, N, a, hreg, hf, ha, hp, hN, hd, hv => by
    have hreg : (finMixTab (cgpmI n) (cgpmSem n) Z (cgpmTab Z n)).Reg m := hreg
    have D := cgpmDLaws Z n
    have L := cgpmLaws n
    obtain ⟨supp, w, C, hA⟩ := finMixAt (OKc := CompOK n) hreg hf fun c h1 h2 => D.comp h1 h2
    have hq := ha.valued hv
    have hq2 : IsQuery _ (mixOK m.indexer supp (finOK n (CompOK n) m)) (valued t a) cs :=
      hq.mono hq.out fun kv hk => mixOK_of (OK := finOK n (CompOK n) m) hA.out hA.support
        (hq.ok kv hk).1 (hq.ok kv hk).2
    have hlp := (sameLp_finMix m r).lp
    rw [hlp] at hp
    have hJ := hA.lp_joint (toM := FinMix.toMetadata (cgpmI n))
      (fromM := FinMix.fromMetadata (cgpmI n)) L (finArrayLaws L) (finArrLaws _ _) hq2.right
    have hJ0 : mixJ (finArrayI (cgpmI n)) (cgpmI n) m r supp w C cs ≠ 0 := fun h0 =>
      hp ((Fl.exp_eq_zero_iff hJ.1).1 (hJ.2.trans h0))
    have hratio := hA.lp_ratio (toM := FinMix.toMetadata (cgpmI n))
      (fromM := FinMix.fromMetadata (cgpmI n)) L (finArrayLaws L) (finArrLaws _ _) hq2 hJ0
    have hratio : (lp (cgpmI (n + 1)) r (.finMix m : Node (Cgpm n)) (valued t a) cs).exp =
        mixJ (finArrayI (cgpmI n)) (cgpmI n) m r supp w C (valued t a ++ cs) /
          mixJ (finArrayI (cgpmI n)) (cgpmI n) m r supp w C cs := hratio.2
    rw [hratio]
    have hlaw := hA.law (μ := μ) hμ L (finArrayLaws L) (finArrLaws _ _)
      (divides_nodup hreg.divides hreg.inv.1 hA.support)
      (divides_nonneg hreg.divides hreg.inv.1 hA.support) hq2 hJ0 (fun v hv => by
        have : v ∈ m.rowDivide.outputs ++ (finArrayI (cgpmI n)).outputs m.array := ha.out v hv
        rw [hA.out] at this
        simpa using this)
      (fun k hk hk0 hT N g out hN ho => by
        obtain ⟨c0, h1, h2, h3, h4⟩ := finMix_comps hreg (finMix_unheld hf) (hA.get k hk)
        obtain ⟨o', h5, h6⟩ := comp_answers (cgpm_simulates Z n) h2 h3 h4 (hA.outs k hk) ha hT
          (fun kv hkv => (ha.query.ok kv hkv).2 c0 h1) hk0
          (by rcases hN with rfl | rfl <;> simp : N ≠ some 0) g
        rw [h5] at ho
        cases ho
        exact h6)
      (fun k hk hk0 hT N hN => by
        obtain ⟨c0, h1, h2, h3, h4⟩ := finMix_comps hreg (finMix_unheld hf) (hA.get k hk)
        have ho : (cgpmI n).outputs c0 = (finArrayI (cgpmI n)).outputs m.array :=
          (L.outputs_E h4).trans (hA.outs k hk)
        have ha' := ha.part (l := (finArrayI (cgpmI n)).outputs m.array) (OK' := Askable n c0) hT
          fun kv hkv _ => compOK_askable ((ha.query.ok kv hkv).2 c0 h1)
        rw [← ho] at ha'
        have := cgpm_law hμ Z n c0 r _ _ N a h2 h3 ha' (by
          intro h0
          rw [ho, lp_E L h4] at h0
          unfold compLp at hk0
          rw [show only ((finArrayI (cgpmI n)).outputs m.array) [] = [] from rfl, h0] at hk0
          exact hk0 rfl) hN
          (fun v hv' => hd v (mem_onlyVars.1 hv').1 c0 h1)
          fun v hv' => compOK_askable ((hv v (mem_onlyVars.1 hv').1).2 c0 h1)
        rw [ho] at this
        unfold compLp
        rw [only_valued, ← lp_E L h4]
        refine this.congr fun g => ?_
        have hr := L.simulate r (onlyVars ((finArrayI (cgpmI n)).outputs m.array) t)
          (only ((finArrayI (cgpmI n)).outputs m.array) cs) [] N c0 (C k) g h4
        unfold runs
        dsimp only
        rw [hr.1, hr.2.2]
        exact ⟨Iff.rfl, rfl⟩) hN
    exact hlaw.congr fun _ => ⟨Iff.rfl, rfl⟩
  | n + 1, .flexMix m, r, t, cs, N, a, hreg, hf, ha, hp, hN, hd, hv => by
    have hreg : (flexMixTab (cgpmI n) (cgpmSem n) Z (cgpmTab Z n)).Reg m := hreg
    have D := cgpmDLaws Z n
    have L := cgpmLaws n
    obtain ⟨supp, w, C, hA⟩ := flexMixAt (OKc := CompOK n) hreg hf fun c h1 h2 => D.comp h1 h2
    have hq := ha.valued hv
    have hq2 : IsQuery _ (mixOK m.indexer supp (flexOK n (CompOK n) m)) (valued t a) cs :=
      hq.mono hq.out fun kv hk => mixOK_of (OK := flexOK n (CompOK n) m) hA.out hA.support
        (hq.ok kv hk).1 (hq.ok kv hk).2
    have hlp := (sameLp_flexMix m r).lp
    rw [hlp] at hp
    have hJ := hA.lp_joint (toM := FlexMix.toMetadata (cgpmI n))
      (fromM := FlexMix.fromMetadata (cgpmI n)) L (flexArrayLaws L) (flexArrLaws L) hq2.right
    have hJ0 : mixJ (flexArrayI (cgpmI n)) (cgpmI n) m r supp w C cs ≠ 0 := fun h0 =>
      hp ((Fl.exp_eq_zero_iff hJ.1).1 (hJ.2.trans h0))
    have hratio := hA.lp_ratio (toM := FlexMix.toMetadata (cgpmI n))
      (fromM := FlexMix.fromMetadata (cgpmI n)) L (flexArrayLaws L) (flexArrLaws L) hq2 hJ0
    have hratio : (lp (cgpmI (n + 1)) r (.flexMix m : Node (Cgpm n)) (valued t a) cs).exp =
        mixJ (flexArrayI (cgpmI n)) (cgpmI n) m r supp w C (valued t a ++ cs) /
          mixJ (flexArrayI (cgpmI n)) (cgpmI n) m r supp w C cs := hratio.2
    rw [hratio]
    have hlaw := hA.law (μ := μ) hμ L (flexArrayLaws L) (flexArrLaws L)
      (divides_nodup hreg.divides hreg.inv.1 hA.support)
      (divides_nonneg hreg.divides hreg.inv.1 hA.support) hq2 hJ0 (fun v hv => by
        have : v ∈ m.rowDivide.outputs ++ (flexArrayI (cgpmI n)).outputs m.array := ha.out v hv
        rw [hA.out] at this
        simpa using this)
      (fun k hk hk0 hT N g out hN ho => by
        obtain ⟨c0, h1, h2, h3, h4⟩ := flexMix_comps hreg (flexMix_unheld hf) (hA.get k hk)
        obtain ⟨o', h5, h6⟩ := comp_answers (cgpm_simulates Z n) h2 h3 h4 (hA.outs k hk) ha hT
          (fun kv hkv => (ha.query.ok kv hkv).2 c0 h1) hk0
          (by rcases hN with rfl | rfl <;> simp : N ≠ some 0) g
        rw [h5] at ho
        cases ho
        exact h6)
      (fun k hk hk0 hT N hN => by
        obtain ⟨c0, h1, h2, h3, h4⟩ := flexMix_comps hreg (flexMix_unheld hf) (hA.get k hk)
        have ho : (cgpmI n).outputs c0 = (flexArrayI (cgpmI n)).outputs m.array :=
          (L.outputs_E h4).trans (hA.outs k hk)
        have ha' := ha.part (l := (flexArrayI (cgpmI n)).outputs m.array) (OK' := Askable n c0) hT
          fun kv hkv _ => compOK_askable ((ha.query.ok kv hkv).2 c0 h1)
        rw [← ho] at ha'
        have := cgpm_law hμ Z n c0 r _ _ N a h2 h3 ha' (by
          intro h0
          rw [ho, lp_E L h4] at h0
          unfold compLp at hk0
          rw [show only ((flexArrayI (cgpmI n)).outputs m.array) [] = [] from rfl, h0] at hk0
          exact hk0 rfl) hN
          (fun v hv' => hd v (mem_onlyVars.1 hv').1 c0 h1)
          fun v hv' => compOK_askable ((hv v (mem_onlyVars.1 hv').1).2 c0 h1)
        rw [ho] at this
        unfold compLp
        rw [only_valued, ← lp_E L h4]
        refine this.congr fun g => ?_
        have hr := L.simulate r (onlyVars ((flexArrayI (cgpmI n)).outputs m.array) t)
          (only ((flexArrayI (cgpmI n)).outputs m.array) cs) [] N c0 (C k) g h4
        unfold runs
        dsimp only
        rw [hr.1, hr.2.2]
        exact ⟨Iff.rfl, rfl⟩) hN
    exact hlaw.congr fun _ => ⟨Iff.rfl, rfl⟩

end Cgpm2
