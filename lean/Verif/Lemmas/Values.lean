import Verif.Lemmas.Samples

/-!
# The values of samples (helpers)
-/

namespace Cgpm2
open Spec

/-- The values that the primitives of a shape hold, cluster variables apart, satisfy `V`. -/
inductive Shape.Good (V : Var → Val → Prop) : Shape → Prop
  | prim {outs kind card} (h : kind ≠ .crp → ∀ o ∈ outs, ∀ p : Prim, p.kind = kind → p.card = card → ∀ q,
      p.Legal (.num q) → V o (.num q)) : Good V (.prim outs kind card)
  | product {parts} (h : ∀ s ∈ parts, Good V s) : Good V (.product parts)
  | array {parts} (h : ∀ s ∈ parts, Good V s) : Good V (.array parts)
  | mix {d a} (h : Good V a) : Good V (.mix d a)

/-- Each value, except of the variables `Z`, satisfies `V`. -/
def Vals (V : Var → Val → Prop) (Z : List Var) (d : Dict Var Val) : Prop := ∀ vy ∈ d, vy.1 ∉ Z → V vy.1 vy.2

/-- Each value of each sample. -/
def ValsOut (V : Var → Val → Prop) (Z : List Var) (out : SimOut) : Prop := ∀ s ∈ samplesOf out, Vals V Z s

variable {V : Var → Val → Prop} {Z : List Var} {S : Type}

theorem vals_nil : Vals V Z [] := fun _ h => by cases h

theorem vals_single {o : Var} {y : Val} (h : o ∉ Z → V o y) : Vals V Z [(o, y)] := by
  intro vy hy hv
  cases List.mem_singleton.1 hy
  exact h hv

theorem vals_set {d : Dict Var Val} (hd : Vals V Z d) {x : Var} {k : Val} (hx : x ∉ Z → V x k) :
    Vals V Z (Dict.set d x k) := by
  induction d with
  | nil => exact vals_single hx
  | cons kv d ih =>
    have ih := ih fun vy hy => hd vy (List.mem_cons_of_mem _ hy)
    unfold Dict.set
    split
    · intro vy hy
      rcases List.mem_cons.1 hy with rfl | hy
      · exact hx
      · exact hd vy (List.mem_cons_of_mem _ hy)
    · intro vy hy
      rcases List.mem_cons.1 hy with rfl | hy
      · exact hd _ List.mem_cons_self
      · exact ih vy hy

theorem vals_update {d e : Dict Var Val} (hd : Vals V Z d) (he : Vals V Z e) : Vals V Z (Dict.update d e) := by
  induction e generalizing d with
  | nil => exact hd
  | cons kv e ih =>
    rw [Dict.update_cons]
    exact ih (vals_set hd (he kv List.mem_cons_self)) fun vy hy => he vy (List.mem_cons_of_mem _ hy)

theorem vals_mergedl {ds : List (Dict Var Val)} (h : ∀ d ∈ ds, Vals V Z d) : Vals V Z (mergedl ds) := by
  have : ∀ (ds : List (Dict Var Val)) (d : Dict Var Val), Vals V Z d → (∀ d ∈ ds, Vals V Z d) →
      Vals V Z (ds.foldl Dict.update d) := by
    intro ds
    induction ds with
    | nil => exact fun d hd _ => hd
    | cons e ds ih =>
      exact fun d hd h => ih _ (vals_update hd (h e List.mem_cons_self)) fun d hd => h d (List.mem_cons_of_mem _ hd)
  exact this ds [] vals_nil h

theorem valsOut_noValues (N : Option Nat) : ValsOut V Z (noValues N) := by
  rcases N with _ | n
  · intro s hs; rw [List.mem_singleton.1 hs]; exact vals_nil
  · intro s hs; rw [List.eq_of_mem_replicate hs]; exact vals_nil

/-! ## Primitives -/

theorem simulateMany_vals {one : Py Rng (Dict Var Val)} {N : Option Nat} {g : Rng} {out : SimOut}
    (h1 : ∀ g s, (one g).1 = .ok s → Vals V Z s) (h : (simulateMany one N g).1 = .ok out) : ValsOut V Z out := by
  rcases N with _ | n
  · obtain ⟨s, hs, h⟩ := Py.bind_ok h
    cases h
    intro s' hs'
    rw [List.mem_singleton.1 hs']
    exact h1 _ _ hs
  · obtain ⟨l, hl, h⟩ := Py.bind_ok h
    cases h
    have : ∀ n g l, (simulateMany.go one n g).1 = .ok l → ∀ s ∈ l, Vals V Z s := by
      intro n
      induction n with
      | zero => intro g l h; cases h; simp
      | succ n ih =>
        intro g l h
        obtain ⟨s, hs, h⟩ := Py.bind_ok h
        obtain ⟨l', hl', h⟩ := Py.bind_ok h
        cases h
        intro s' hs'
        rcases List.mem_cons.1 hs' with rfl | hs'
        · exact h1 _ _ hs
        · exact ih _ _ hl' s' hs'
    exact this n g l hl

theorem prim_vals {p : Prim} (hI : p.Inv) {r : RowId} {t : List Var} {cs : Dict Var Val}
    {i : Dict Var Val} {N : Option Nat} {g : Rng} {out : SimOut}
    (hV : ∀ o, p.outputs = [o] → o ∉ Z → p.kind ≠ .crp ∧ ∀ q, p.Legal (.num q) → V o (.num q))
    (h : (p.simulate r t cs i N g).1 = .ok out) : ValsOut V Z out := by
  obtain ⟨o, ho⟩ := hI.out
  have hV := hV o ho
  have held : ∀ {d : Dict RowId Val} {q : ℚ}, Dict.get? d r = some (.num q) → Val.num q ∈ valuesOf d :=
    fun h => Categorical.mem_values_of_get? h
  cases p with
  | crp c =>
    refine simulateMany_vals ?_ h
    intro g s hs
    obtain ⟨u, h1, hs⟩ := Py.bind_ok hs
    obtain ⟨o', h2, hs⟩ := Py.bind_ok hs
    have e := firstOutput_ok (outs := c.outputs) ho h2
    rw [show c.outputs = [o] from ho] at e
    injection e with e
    subst e
    have hb : ∀ y, Vals V Z [(o', y)] := fun y => vals_single fun hv => absurd rfl (hV hv).1
    rcases hd : Dict.get? c.data r with _ | x <;> rw [hd] at hs
    · obtain ⟨l, -, hs⟩ := Py.bind_ok hs
      obtain ⟨l, -, hs⟩ := Py.bind_ok hs
      cases hs; exact hb _
    · cases hs; exact hb _
  | categorical c =>
    have hI : c.Inv := hI
    refine simulateMany_vals ?_ h
    intro g s hs
    obtain ⟨u, h1, hs⟩ := Py.bind_ok hs
    obtain ⟨o', h2, hs⟩ := Py.bind_ok hs
    have e := firstOutput_ok (outs := c.outputs) ho h2
    rw [show c.outputs = [o] from ho] at e
    injection e with e
    subst e
    have hb : ∀ q, Prim.Legal (.categorical c) (.num q) → Vals V Z [(o', .num q)] :=
      fun q hq => vals_single fun hv => (hV hv).2 q hq
    have key : ∀ {g : Rng} {i : Nat}, (pflipIdx c.simulateWeights g).1 = .ok i →
        Prim.Legal (.categorical c) (.num ((i : Nat) : ℚ)) := by
      intro g i hi
      have := pflipIdx_lt hi
      unfold Categorical.simulateWeights at this
      rw [List.length_map] at this
      exact ⟨i, by have := hI.len; omega, rfl⟩
    rcases hd : Dict.get? c.data r with _ | _ | x <;> rw [hd] at hs
    · obtain ⟨l, hl, hs⟩ := Py.bind_ok hs
      cases hs; exact hb _ (key hl)
    · obtain ⟨l, hl, hs⟩ := Py.bind_ok hs
      cases hs; exact hb _ (key hl)
    · cases hs; exact hb _ (hI.legal _ (held hd))
  | bernoulli c =>
    have hI : c.Inv := hI
    refine simulateMany_vals ?_ h
    intro g s hs
    obtain ⟨u, h1, hs⟩ := Py.bind_ok hs
    obtain ⟨o', h2, hs⟩ := Py.bind_ok hs
    have e := firstOutput_ok (outs := c.outputs) ho h2
    rw [show c.outputs = [o] from ho] at e
    injection e with e
    subst e
    have hb : ∀ q, Prim.Legal (.bernoulli c) (.num q) → Vals V Z [(o', .num q)] :=
      fun q hq => vals_single fun hv => (hV hv).2 q hq
    have key : ∀ {g : Rng} {a b : Fl} {i : Nat}, (logPflipIdx [a, b] g).1 = .ok i →
        Prim.Legal (.bernoulli c) (.num ((i : Nat) : ℚ)) := by
      intro g a b i hi
      have := logPflipIdx_lt hi
      simp only [List.length_cons, List.length_nil] at this
      have : i = 0 ∨ i = 1 := by omega
      rcases this with rfl | rfl
      · exact .inl (by simp)
      · exact .inr (by simp)
    rcases hd : Dict.get? c.data r with _ | _ | x <;> rw [hd] at hs
    · obtain ⟨a, -, hs⟩ := Py.bind_ok hs
      obtain ⟨b, -, hs⟩ := Py.bind_ok hs
      obtain ⟨l, hl, hs⟩ := Py.bind_ok hs
      cases hs; exact hb _ (key hl)
    · obtain ⟨a, -, hs⟩ := Py.bind_ok hs
      obtain ⟨b, -, hs⟩ := Py.bind_ok hs
      obtain ⟨l, hl, hs⟩ := Py.bind_ok hs
      cases hs; exact hb _ (key hl)
    · cases hs; exact hb _ (hI.legal _ (held hd))
  | normal c =>
    refine simulateMany_vals ?_ h
    intro g s hs
    obtain ⟨u, h1, hs⟩ := Py.bind_ok hs
    obtain ⟨o', h2, hs⟩ := Py.bind_ok hs
    have e := firstOutput_ok (outs := c.outputs) ho h2
    rw [show c.outputs = [o] from ho] at e
    injection e with e
    subst e
    have hb : ∀ q, Vals V Z [(o', .num q)] := fun q => vals_single fun hv => (hV hv).2 q trivial
    rcases hd : Dict.get? c.data r with _ | _ | x <;> rw [hd] at hs <;> cases hs <;> exact hb _
  | poisson c =>
    have hI : c.Inv := hI
    refine simulateMany_vals ?_ h
    intro g s hs
    obtain ⟨u, h1, hs⟩ := Py.bind_ok hs
    obtain ⟨o', h2, hs⟩ := Py.bind_ok hs
    have e := firstOutput_ok (outs := c.outputs) ho h2
    rw [show c.outputs = [o] from ho] at e
    injection e with e
    subst e
    have hb : ∀ q, Prim.Legal (.poisson c) (.num q) → Vals V Z [(o', .num q)] :=
      fun q hq => vals_single fun hv => (hV hv).2 q hq
    rcases hd : Dict.get? c.data r with _ | _ | x <;> rw [hd] at hs
    · cases hs; exact hb _ ⟨_, rfl⟩
    · cases hs; exact hb _ ⟨_, rfl⟩
    · cases hs; exact hb _ (hI.legal _ (held hd))
  | normalUC c =>
    obtain ⟨u, h1, hs⟩ := Py.bind_ok h
    obtain ⟨o', h2, hs⟩ := Py.bind_ok hs
    have e := firstOutput_ok (outs := c.outputs) ho h2
    rw [show c.outputs = [o] from ho] at e
    injection e with e
    subst e
    have hb : ∀ q, Vals V Z [(o', .num q)] := fun q => vals_single fun hv => (hV hv).2 q trivial
    have hm : ∀ {g out}, (simulateMany (fun rng => let (x, rng) := rng.draw; (.ok [(o', .num x)], rng)) N g).1 = .ok out →
        ValsOut V Z out := by
      intro g out hs
      refine simulateMany_vals ?_ hs
      intro g s hs
      cases hs; exact hb _
    rcases hd : Dict.get? c.data r with _ | _ | x <;> rw [hd] at hs
    · exact hm hs
    · exact hm hs
    · cases hs
      intro s hs
      rw [List.mem_singleton.1 hs]
      exact hb _

/-! ## Composites -/

/-- The values of `simulate` satisfy `V`. -/
def ValLaw (I : Iface S) (M : Sem S) (T : Tab S) (Z : List Var) (V : Var → Val → Prop) : Prop :=
  ∀ s r t cs N g out, T.Reg s → (M.shape s).Good V → (I.simulate r t cs [] N (s, g)).1 = .ok out → ValsOut V Z out

theorem mergeSamples_vals {outs : List SimOut} {out : SimOut} (h : ∀ o ∈ outs, ValsOut V Z o)
    (ho : mergeSamples outs = .ok out) : ValsOut V Z out := by
  rcases outs with _ | ⟨o, outs⟩
  · cases ho
  rcases o with d | l
  · have ho : (outs.mapM (fun s => match s with
      | .one d => Except.ok d
      | .many _ => Except.error Err.typeError) >>= fun ds => pure (.one (mergedl (d :: ds)))) = .ok out := ho
    rcases hm : outs.mapM (fun s => match s with
      | .one d => Except.ok d
      | .many _ => Except.error Err.typeError) with e | ds <;> rw [hm] at ho <;> cases ho
    intro s hs
    rw [List.mem_singleton.1 hs]
    refine vals_mergedl fun e he => ?_
    rcases List.mem_cons.1 he with rfl | he
    · exact h (.one e) List.mem_cons_self e (List.mem_singleton.2 rfl)
    · have hf := (mapM_ok_iff _ _ _).1 hm
      obtain ⟨o, ho, e1⟩ := forall₂_exists_mem hf he
      rcases o with d' | l'
      · cases e1
        exact h (.one e) (List.mem_cons_of_mem _ ho) e (List.mem_singleton.2 rfl)
      · cases e1
  · have ho : (mergeSamplesMany (.many l :: outs) >>= fun ls => pure (.many ((zipStar ls).map mergedl))) = .ok out := ho
    rcases hm : mergeSamplesMany (.many l :: outs) with e | ls <;> rw [hm] at ho <;> cases ho
    have hmany : ∀ {outs : List SimOut} {ls : List (List (Dict Var Val))}, mergeSamplesMany outs = .ok ls →
        outs = ls.map SimOut.many := by
      intro outs
      induction outs with
      | nil => intro ls h; cases h; rfl
      | cons o outs ih =>
        intro ls h
        rcases o with d | l
        · cases h
        · have h : (mergeSamplesMany outs >>= fun ls => pure (l :: ls)) = .ok ls := h
          rcases h1 : mergeSamplesMany outs with e | ls' <;> rw [h1] at h <;> cases h
          rw [ih h1]; rfl
    have hm := hmany hm
    rw [hm] at h
    intro s hs
    obtain ⟨row, hrow, rfl⟩ := List.mem_map.1 hs
    refine vals_mergedl fun e he => ?_
    rcases ls with _ | ⟨l0, ls⟩
    · cases hrow
    · obtain ⟨i, -, rfl⟩ := List.mem_map.1 hrow
      obtain ⟨l', hl', rfl⟩ := List.mem_map.1 he
      rw [List.getD_eq_getElem?_getD]
      rcases hi : l'[i]? with _ | e
      · exact vals_nil
      · exact h (.many l') (List.mem_map_of_mem hl') e (List.mem_of_getElem? hi)

theorem productVal {I : Iface S} {M : Sem S} {T : Tab S} (h : ValLaw I M T Z V) :
    ValLaw (productI I) (productSem I M) (productTab I T) Z V := by
  intro p r t cs N g out hp hg ho
  have hg : (Shape.product (p.cgpms.map M.shape)).Good V := hg
  cases hg with
  | product hg =>
  obtain ⟨outs, h1, h2⟩ := Py.bind_ok (show ((Product.each (simulateOne I r t cs [] N) >>=
    fun samples => Py.lift (mergeSamples samples)) (p, g)).1 = .ok out from ho)
  have h1 : (Py.each (simulateOne I r t cs [] N) (p.cgpms, g)).1 = .ok outs := h1
  have h3 := Py.each_post (P := fun c => T.Reg c ∧ (M.shape c).Good V)
    (Q := fun c o => ValsOut V Z o) ?_ p.cgpms g outs ?_ h1
  · refine mergeSamples_vals (fun o ho => ?_) h2
    exact (forall₂_exists h3 ho).choose_spec
  · intro c g a hc ha
    have ha : ((if onlyVars (I.outputs c) t = [] then (Pure.pure (noValues N) : Py (S × Rng) SimOut)
      else I.simulate r (onlyVars (I.outputs c) t) (only (I.outputs c) cs) (only (I.inputs c) []) N)
      (c, g)).1 = .ok a := by
      rw [← ha]
      unfold simulateOne
      rw [Py.get_bind]
      dsimp only
      rcases N with _ | n <;> rfl
    split at ha
    · cases ha
      exact valsOut_noValues N
    · exact h c r _ _ N g a hc.1 hc.2 ha
  · intro c hc
    exact ⟨hp.1 c hc, hg _ (List.mem_map_of_mem hc)⟩

section
variable {A : Type} {AI : Iface A} {I : Iface S} {MA : Sem A} {M : Sem S} {R : Arr A S} {T : Tab S}
  {X : Prim → Nat → Prop}

theorem mixSimulateOne_vals (LR : ArrLaws AI I MA M R) {m : RowMix A} {r : RowId} {k : Val}
    (hi : MA.Inv m.array) (hx : R.x m.array = m.indexer) (hz : m.indexer ∈ Z) {c : S} (hc : R.get m.array k = some c)
    {g : Rng} {t : List Var} {cs : Dict Var Val} {N : Option Nat} {out : SimOut}
    (hE : ∀ out, (I.simulate r (onlyVars (AI.outputs m.array) t) (only (AI.outputs m.array) cs) [] N
      (c, g)).1 = .ok out → ValsOut V Z out)
    (ho : (RowMix.simulateOne AI r t cs [] N k (m, g)).1 = .ok out) : ValsOut V Z out := by
  have htail : ∀ (st : RowMix A × Rng) (out0 : SimOut), ValsOut V Z out0 → ((if m.indexer ∈ t then
      match N, out0 with
      | none, .one s => (Pure.pure (SimOut.one (Dict.set s m.indexer k)) : Py (RowMix A × Rng) SimOut)
      | some _, .many l => Pure.pure (.many (l.map fun s => Dict.set s m.indexer k))
      | none, .many _ => Py.throw .typeError
      | some _, .one _ => Py.throw .typeError
    else Pure.pure out0) st).1 = .ok out → ValsOut V Z out := by
    rintro st out0 e3 h
    by_cases hT : m.indexer ∈ t
    · rw [if_pos hT] at h
      rcases N with _ | n <;> rcases out0 with s | l
      · cases h
        intro s' hs'
        rw [List.mem_singleton.1 hs']
        exact vals_set (e3 s (by simp [samplesOf])) fun hn => absurd hz hn
      · cases h
      · cases h
      · cases h
        intro s' hs'
        obtain ⟨s, hs, rfl⟩ := List.mem_map.1 hs'
        exact vals_set (e3 s hs) fun hn => absurd hz hn
    · rw [if_neg hT] at h
      cases h
      exact e3
  unfold RowMix.simulateOne at ho
  rw [Py.get_bind] at ho
  dsimp only at ho
  by_cases hT : onlyVars (AI.outputs m.array) t = []
  · rw [if_neg (not_not.2 (show getIntersectionL (m.outputsX AI) t = [] from hT))] at ho
    have h0 := valsOut_noValues (V := V) (Z := Z) N
    rcases N with _ | n <;> exact htail _ _ h0 ho
  · rw [if_pos (show ¬ getIntersectionL (m.outputsX AI) t = [] from hT)] at ho
    rw [show merged (getIntersection (m.outputsX AI) []) [(m.indexer, k)] = [(R.x m.array, k)] by
      rw [hx]; rfl] at ho
    obtain ⟨out0, h1, h2⟩ := Py.bind_ok ho
    rw [onArray_eq, LR.simulate _ _ _ _ _ _ _ _ hi hc] at h1
    exact htail _ out0 (hE out0 h1) h2

theorem mixVal (L : Laws I M) (LA : Laws AI MA) (LR : ArrLaws AI I MA M R) (K : TLaws I M Z T)
    (hS : ValLaw I M T Z V) {m : RowMix A} (h : MixReg AI I MA X R Z T m)
    (hget : ∀ z, m.rowDivide.Legal z → (∃ k : Int, z = .num (k : ℚ)) → ∃ c, R.get m.array z = some c)
    (hg : ∀ k c, R.get m.array k = some c → (M.shape c).Good V)
    {r : RowId} {t : List Var} {cs : Dict Var Val} {N : Option Nat} {g : Rng} {out : SimOut}
    (ho : (RowMix.simulate AI r t cs [] N (m, g)).1 = .ok out) : ValsOut V Z out := by
  unfold RowMix.simulate at ho
  rw [Py.get_bind] at ho
  dsimp only at ho
  have one : ∀ {k : Val} {c : S} {N : Option Nat} {st : RowMix A × Rng} {out : SimOut}, RowMix.E0 MA m st.1 →
      R.get m.array k = some c → (RowMix.simulateOne AI r t cs [] N k st).1 = .ok out → ValsOut V Z out := by
    intro k c N st out hst hc ho
    obtain ⟨c', hc', hE⟩ := LR.get_E _ _ _ _ hst.2.1 hc
    have hreg := h.comp _ _ hc
    have hx : R.x st.1.array = st.1.indexer := by
      rw [← LR.E_x _ _ hst.2.1, h.x_eq, hst.indexer]
    refine mixSimulateOne_vals LR (LA.inv' hst.2.1) hx (by rw [← hst.indexer]; exact h.x_mem) hc' ?_ ho
    intro o' ho'
    refine hS c' r _ _ _ _ o' (K.reg_E _ _ hE hreg.1) ?_ ho'
    rw [← L.shape_E hE]
    exact hg k c hc
  have hm : RowMix.E0 MA m m := ⟨primLaws.refl _ h.inv.1, LA.refl _ h.inv.2.1, rfl⟩
  rcases hk : Dict.get? m.rowidToComponent r with _ | k <;> rw [hk] at ho <;> dsimp only at ho
  · rcases hz : Dict.get? cs m.indexer with _ | z <;> rw [hz] at ho <;> dsimp only at ho
    · obtain ⟨supp, w, hsupp, hw, -⟩ := Prim.prior h.divides h.inv.1 h.out ((h.data r).trans hk)
      unfold RowMix.simulateFresh at ho
      rw [Py.get_bind] at ho
      dsimp only at ho
      rw [Py.lift_bind, hsupp] at ho
      dsimp only at ho
      obtain ⟨zw, hzw, ho⟩ := Py.bind_ok ho
      have hzw : zw.length = supp.length := (Py.mapL_post (P := fun _ => True) (Q := fun _ _ => True)
        (fun _ _ _ => trivial) (fun _ _ _ _ _ => trivial) _ _ _ trivial hzw).length_eq.symm
      have h1 := RowMix.keeps_mapL LA (fun z : Int => RowMix.keeps_logpdf LA (AI := AI) r
        [(m.indexer, .num z)] cs []) supp m g hm
      generalize (Py.mapL (fun z : Int => RowMix.logpdf AI r [(m.indexer, .num (z : ℚ))] cs []) supp
        (m, g)).2 = st1 at ho h1
      obtain ⟨is, his, ho⟩ := Py.bind_ok ho
      have hlt := logPflipMany_lt _ _ _ _ (show (logPflipMany zw _ st1.2).1 = .ok is from his)
      rw [hzw] at hlt
      generalize hst2 : (Py.onSnd (S := RowMix A) (logPflipMany zw _) st1).2 = st2 at ho
      have h2 : RowMix.E0 MA m st2.1 := by rw [← hst2]; exact h1
      rw [Py.lift_bind] at ho
      rcases hb : bincount (is.map fun i : Nat => supp.getD i 0) with e | counts <;> rw [hb] at ho
      · cases ho
      dsimp only at ho
      obtain ⟨b1, b2, b3⟩ := bincount_ok hb
      obtain ⟨outs, houts, ho⟩ := Py.bind_ok ho
      have hmem : ∀ zn ∈ counts, zn.1 ∈ supp := by
        intro zn hzn
        obtain ⟨c1, c2⟩ := b2 zn hzn
        obtain ⟨i, hi, hi'⟩ := List.mem_map.1 c2
        rw [← hi', List.getD_eq_getElem?_getD, List.getElem?_eq_getElem (hlt i hi), Option.getD_some]
        exact List.getElem_mem _
      have h3 : List.Forall₂ (fun (zn : Int × Nat) o => zn ∈ counts → ValsOut V Z o) counts outs := by
        refine Py.mapL_post (P := fun st => RowMix.E0 MA m st.1) ?_ ?_ counts st2 outs h2 houts
        · intro zn st hst
          exact hst.trans LA (RowMix.keeps_simulateOne LA _ _ _ _ _ _ st.1 st.2 (hst.right LA))
        · intro zn st o hst ho hzn
          obtain ⟨c, hc⟩ := hget _ (hw _ (hmem zn hzn)).2 ⟨zn.1, rfl⟩
          exact one hst hc ho
      have h3 := forall₂_drop_mem h3
      have hk : ∀ s ∈ outs.flatMap samplesOf, Vals V Z s := by
        intro s hs
        obtain ⟨o, ho, hs⟩ := List.mem_flatMap.1 hs
        obtain ⟨zn, hq⟩ := forall₂_exists h3 ho
        exact hq s hs
      rw [Py.lift_bind] at ho
      rcases hch : RowMix.chainSamples outs with e | all <;> rw [hch] at ho
      · cases ho
      dsimp only at ho
      rw [← chainSamples_eq hch] at hk
      rcases N with _ | n
      · rcases all with _ | ⟨s, all⟩
        · cases ho
        · cases ho
          intro s' hs'
          rw [List.mem_singleton.1 hs']
          exact hk s List.mem_cons_self
      · cases ho
        exact hk
    · obtain ⟨supp, w, hsupp, hw, -⟩ := Prim.prior h.divides h.inv.1 h.out ((h.data r).trans hk)
      rw [Py.lift_bind, hsupp] at ho
      dsimp only at ho
      split at ho
      · cases ho
      · next hz' =>
        obtain ⟨k, hk', rfl⟩ := not_not.1 hz'
        obtain ⟨c, hc⟩ := hget _ (hw k hk').2 ⟨k, rfl⟩
        exact one (st := (m, g)) hm hc ho
  · obtain ⟨-, -, ho⟩ := Py.bind_ok ho
    obtain ⟨-, c, hc, -⟩ := h.books r k hk
    have hst : ∀ (p : Prop) [Decidable p], (Py.assert p (m, g)).2 = (m, g) := by
      intro p _
      rw [Py.assert_apply]
      split <;> rfl
    rw [hst] at ho
    exact one (st := (m, g)) hm hc ho

end

theorem cgpmVal (Z : List Var) (V : Var → Val → Prop) : (n : Nat) → ValLaw (cgpmI n) (cgpmSem n) (cgpmTab Z n) Z V
  | 0 => by
    intro p r t cs N g out hp hg ho
    have hp : (primTab Z).Reg p := hp
    refine prim_vals hp.1.1 (fun o ho' hz => ?_) (show (Prim.simulate p r t cs [] N g).1 = .ok out from ho)
    have hg : (Prim.shape p).Good V := hg
    have hk : p.kind ≠ .crp := fun hk => hz (hp.2.2.1 hk o (by rw [ho']; simp))
    cases hg with
    | prim hg => exact ⟨hk, hg hk o (by rw [ho']; simp) p rfl rfl⟩
  | n + 1 => by
    intro c r t cs N g out hp hg ho
    cases c with
    | prim p =>
      have hp : (primTab Z).Reg p := hp
      refine prim_vals hp.1.1 (fun o ho' hz => ?_) (show (Prim.simulate p r t cs [] N g).1 = .ok out from ho)
      have hg : (Prim.shape p).Good V := hg
      have hk : p.kind ≠ .crp := fun hk => hz (hp.2.2.1 hk o (by rw [ho']; simp))
      cases hg with
      | prim hg => exact ⟨hk, hg hk o (by rw [ho']; simp) p rfl rfl⟩
    | product p => exact productVal (cgpmVal Z V n) p r t cs N g out hp hg ho
    | finArray a => exact hp.elim
    | flexArray a => exact hp.elim
    | finMix m =>
      have hp : (finMixTab (cgpmI n) (cgpmSem n) Z (cgpmTab Z n)).Reg m := hp
      have hg : (Shape.mix m.rowDivide.shape (.array (m.array.cgpms.map (cgpmSem n).shape))).Good V := hg
      cases hg with
      | mix hg =>
      cases hg with
      | array hg =>
      refine mixVal (cgpmLaws n) (finArrayLaws (cgpmLaws n)) (finArrLaws _ _) (cgpmTLaws Z n) (cgpmVal Z V n) hp
        (finMix_get hp) ?_ ho
      intro k c hc
      obtain ⟨j, -, hj, -⟩ := FinArray.get_some hc
      exact hg _ (List.mem_map_of_mem (List.mem_of_getElem? hj))
    | flexMix m =>
      have hp : (flexMixTab (cgpmI n) (cgpmSem n) Z (cgpmTab Z n)).Reg m := hp
      have hg : (Shape.mix m.rowDivide.shape ((cgpmSem n).shape m.array.base)).Good V := hg
      cases hg with
      | mix hg =>
      refine mixVal (cgpmLaws n) (flexArrayLaws (cgpmLaws n)) (flexArrLaws (cgpmLaws n)) (cgpmTLaws Z n) (cgpmVal Z V n) hp
        (fun z _ _ => ⟨_, rfl⟩) ?_ ho
      intro k c hc
      have hc : m.array.comp (cgpmSem n) k = c := Option.some.inj hc
      have h1 := (hp.inv.2.1.2.1 k).2.2
      rw [hc] at h1
      rw [show (cgpmSem n).shape c = (cgpmSem n).shape m.array.base from h1]
      exact hg

end Cgpm2
