import Verif.Lemmas.TowerDensity
import Verif.Spec.Samples

/-!
# How many samples `simulate` returns and of which variables (helpers)
-/

namespace Cgpm2
open Spec

variable {S : Type}

theorem Py.bind_ok {T α β : Type} {m : Py T α} {f : α → Py T β} {s : T} {b : β}
    (h : ((m >>= f) s).1 = .ok b) : ∃ a, (m s).1 = .ok a ∧ (f a (m s).2).1 = .ok b := by
  rw [Py.bind_apply] at h
  rcases hm : m s with ⟨e | a, s'⟩ <;> rw [hm] at h
  · cases h
  · exact ⟨a, rfl, h⟩

theorem mem_keys_update {K V : Type} [DecidableEq K] (d e : Dict K V) (k : K) :
    k ∈ Dict.keys (Dict.update d e) ↔ k ∈ Dict.keys d ∨ k ∈ Dict.keys e := by
  induction e generalizing d with
  | nil => simp [Dict.update]
  | cons kv e ih =>
    rw [Dict.update_cons, ih, Dict.mem_keys_set, Dict.keys_cons, List.mem_cons]
    tauto

theorem mem_keys_mergedl {K V : Type} [DecidableEq K] (ds : List (Dict K V)) (k : K) :
    k ∈ Dict.keys (mergedl ds) ↔ ∃ d ∈ ds, k ∈ Dict.keys d := by
  have : ∀ (d0 : Dict K V), k ∈ Dict.keys (ds.foldl Dict.update d0) ↔
      k ∈ Dict.keys d0 ∨ ∃ d ∈ ds, k ∈ Dict.keys d := by
    induction ds with
    | nil => simp
    | cons d ds ih =>
      intro d0
      rw [List.foldl_cons, ih, mem_keys_update]
      simp [or_assoc]
  rw [mergedl, this]
  simp

/-! ## Primitives -/

theorem simulateMany_exact {one : Py Rng (Dict Var Val)} {o : Var} {t : List Var} {N : Option Nat}
    {g : Rng} {out : SimOut} (h1 : ∀ g s, (one g).1 = .ok s → t = [o] ∧ Dict.keys s = t)
    (h : (simulateMany one N g).1 = .ok out) : ExactSamples N t out := by
  have h1' : ∀ g s, (one g).1 = .ok s → (∀ v, v ∈ Dict.keys s ↔ v ∈ t) ∧ (Dict.keys s).Nodup := by
    intro g s hs
    obtain ⟨h2, h3⟩ := h1 g s hs
    rw [h3, h2]
    simp
  rcases N with _ | n
  · obtain ⟨s, hs, h⟩ := Py.bind_ok h
    cases h
    refine ⟨trivial, rfl, ?_⟩
    intro s' hs'
    rw [List.mem_singleton.1 hs']
    exact h1' _ _ hs
  · obtain ⟨l, hl, h⟩ := Py.bind_ok h
    cases h
    have : ∀ n g l, (simulateMany.go one n g).1 = .ok l →
        l.length = n ∧ ∀ s ∈ l, (∀ v, v ∈ Dict.keys s ↔ v ∈ t) ∧ (Dict.keys s).Nodup := by
      intro n
      induction n with
      | zero => intro g l h; cases h; simp
      | succ n ih =>
        intro g l h
        obtain ⟨s, hs, h⟩ := Py.bind_ok h
        obtain ⟨l', hl', h⟩ := Py.bind_ok h
        cases h
        obtain ⟨h2, h3⟩ := ih _ _ hl'
        refine ⟨by simp [h2], ?_⟩
        intro s' hs'
        rcases List.mem_cons.1 hs' with rfl | hs'
        · exact h1' _ _ hs
        · exact h3 s' hs'
    obtain ⟨h2, h3⟩ := this n g l hl
    exact ⟨trivial, h2, h3⟩

theorem simulateGuard_targets {outs t : List Var} {cs i : Dict Var Val} {u : Unit}
    (h : simulateGuard outs t cs i = .ok u) : t = outs := by
  unfold simulateGuard at h
  split at h
  · cases h
  · split at h
    · cases h
    · split at h
      · cases h
      · next h3 => exact not_not.1 h3

theorem firstOutput_ok {outs : List Var} {x o : Var} (ho : outs = [x]) (h : firstOutput outs = .ok o) :
    [o] = outs := by
  subst ho
  cases h
  rfl

theorem prim_exact {p : Prim} (hI : p.Inv) {r : RowId} {t : List Var} {cs : Dict Var Val}
    {i : Dict Var Val} {N : Option Nat} {g : Rng} {out : SimOut}
    (hr : r ∉ Dict.keys p.data ∨ p.kind ≠ .normalUC)
    (h : (p.simulate r t cs i N g).1 = .ok out) : ExactSamples N t out := by
  obtain ⟨o, ho⟩ := hI.out
  cases p with
  | crp c =>
    refine simulateMany_exact (o := o) ?_ h
    intro g s hs
    obtain ⟨u, h1, hs⟩ := Py.bind_ok hs
    obtain ⟨o', h2, hs⟩ := Py.bind_ok hs
    refine ⟨(simulateGuard_targets h1).trans ho, ?_⟩
    rw [simulateGuard_targets h1, ← firstOutput_ok (outs := c.outputs) ho h2]
    rcases hd : Dict.get? c.data r with _ | x <;> rw [hd] at hs
    · obtain ⟨l, -, hs⟩ := Py.bind_ok hs
      obtain ⟨l, -, hs⟩ := Py.bind_ok hs
      cases hs; rfl
    · cases hs; rfl
  | categorical c =>
    refine simulateMany_exact (o := o) ?_ h
    intro g s hs
    obtain ⟨u, h1, hs⟩ := Py.bind_ok hs
    obtain ⟨o', h2, hs⟩ := Py.bind_ok hs
    refine ⟨(simulateGuard_targets h1).trans ho, ?_⟩
    rw [simulateGuard_targets h1, ← firstOutput_ok (outs := c.outputs) ho h2]
    rcases hd : Dict.get? c.data r with _ | _ | x <;> rw [hd] at hs
    · obtain ⟨l, -, hs⟩ := Py.bind_ok hs
      cases hs; rfl
    · obtain ⟨l, -, hs⟩ := Py.bind_ok hs
      cases hs; rfl
    · cases hs; rfl
  | bernoulli c =>
    refine simulateMany_exact (o := o) ?_ h
    intro g s hs
    obtain ⟨u, h1, hs⟩ := Py.bind_ok hs
    obtain ⟨o', h2, hs⟩ := Py.bind_ok hs
    refine ⟨(simulateGuard_targets h1).trans ho, ?_⟩
    rw [simulateGuard_targets h1, ← firstOutput_ok (outs := c.outputs) ho h2]
    rcases hd : Dict.get? c.data r with _ | _ | x <;> rw [hd] at hs
    · obtain ⟨l, -, hs⟩ := Py.bind_ok hs
      obtain ⟨l, -, hs⟩ := Py.bind_ok hs
      obtain ⟨l, -, hs⟩ := Py.bind_ok hs
      cases hs; rfl
    · obtain ⟨l, -, hs⟩ := Py.bind_ok hs
      obtain ⟨l, -, hs⟩ := Py.bind_ok hs
      obtain ⟨l, -, hs⟩ := Py.bind_ok hs
      cases hs; rfl
    · cases hs; rfl
  | normal c =>
    refine simulateMany_exact (o := o) ?_ h
    intro g s hs
    obtain ⟨u, h1, hs⟩ := Py.bind_ok hs
    obtain ⟨o', h2, hs⟩ := Py.bind_ok hs
    refine ⟨(simulateGuard_targets h1).trans ho, ?_⟩
    rw [simulateGuard_targets h1, ← firstOutput_ok (outs := c.outputs) ho h2]
    rcases hd : Dict.get? c.data r with _ | _ | x <;> rw [hd] at hs <;> cases hs <;> rfl
  | poisson c =>
    refine simulateMany_exact (o := o) ?_ h
    intro g s hs
    obtain ⟨u, h1, hs⟩ := Py.bind_ok hs
    obtain ⟨o', h2, hs⟩ := Py.bind_ok hs
    refine ⟨(simulateGuard_targets h1).trans ho, ?_⟩
    rw [simulateGuard_targets h1, ← firstOutput_ok (outs := c.outputs) ho h2]
    rcases hd : Dict.get? c.data r with _ | _ | x <;> rw [hd] at hs <;> cases hs <;> rfl
  | normalUC c =>
    obtain ⟨u, h1, hs⟩ := Py.bind_ok h
    obtain ⟨o', h2, hs⟩ := Py.bind_ok hs
    rw [simulateGuard_targets h1, ← firstOutput_ok (outs := c.outputs) ho h2]
    rcases hr with hr | hr
    · have hd : Dict.get? c.data r = none := (Dict.get?_eq_none_iff _ _).2 hr
      rw [hd] at hs
      refine simulateMany_exact (o := o') ?_ hs
      intro g s hs
      cases hs; exact ⟨rfl, rfl⟩
    · exact (hr rfl).elim

/-! ## The law -/

/-- `simulate` of a row that is not held, or on a model satisfying `P`, returns exact samples. -/
def SimLaw (I : Iface S) (T : Tab S) (P : S → Prop) : Prop :=
  ∀ s r t cs N g out, T.Reg s → T.Fresh s r ∨ P s → (∀ v ∈ t, v ∈ I.outputs s) → N ≠ some 0 →
    (I.simulate r t cs [] N (s, g)).1 = .ok out → ExactSamples N t out

theorem exact_noValues (N : Option Nat) : ExactSamples N [] (noValues N) := by
  rcases N with _ | n
  · exact ⟨trivial, rfl, by simp [samplesOf, noValues, Dict.keys]⟩
  · refine ⟨trivial, by simp [samplesOf, noValues], ?_⟩
    intro s hs
    have := List.eq_of_mem_replicate hs
    simp [this, Dict.keys]

theorem mem_onlyVars {l t : List Var} {v : Var} : v ∈ onlyVars l t ↔ v ∈ t ∧ v ∈ l := by
  simp [onlyVars]

/-! ## Products -/

theorem Py.each_post {T α : Type} {m : Py (S × T) α} {P : S → Prop} {Q : S → α → Prop}
    (h : ∀ s g a, P s → (m (s, g)).1 = .ok a → Q s a) :
    ∀ (l : List S) (g : T) (as : List α), (∀ s ∈ l, P s) → (Py.each m (l, g)).1 = .ok as →
      List.Forall₂ Q l as := by
  intro l
  induction l with
  | nil => intro g as _ h'; cases h'; exact .nil
  | cons s l ih =>
    intro g as hP h'
    rw [Py.each_cons] at h'
    rcases hm : m (s, g) with ⟨e | a, s', g'⟩ <;> rw [hm] at h'
    · cases h'
    · dsimp only at h'
      rcases hl : Py.each m (l, g') with ⟨e | bs, l', g''⟩ <;> rw [hl] at h'
      · cases h'
      · cases h'
        exact .cons (h s g a (hP s (by simp)) (by rw [hm]))
          (ih g' bs (fun s hs => hP s (by simp [hs])) (by rw [hl]))

theorem mergeSamplesMany_eq {n : Nat} : ∀ {outs : List SimOut} {ls : List (List (Dict Var Val))},
    mergeSamplesMany outs = .ok ls → (∀ o ∈ outs, WellFormed (some n) o) →
    outs = ls.map SimOut.many
  | [], ls, h, _ => by cases h; rfl
  | .one d :: _, ls, h, hw => False.elim (hw (.one d) (by simp))
  | .many l :: outs, ls, h, hw => by
    unfold mergeSamplesMany at h
    rcases h' : mergeSamplesMany outs with e | ls' <;> rw [h'] at h
    · cases h
    · cases h
      rw [List.map_cons, mergeSamplesMany_eq h' fun o ho => hw o (by simp [ho])]

theorem foldl_min_const {n : Nat} : ∀ {ls : List (List (Dict Var Val))} (_ : ∀ l ∈ ls, l.length = n),
    ls.foldl (fun n l' => min n l'.length) n = n
  | [], _ => rfl
  | l :: ls, h => by
    rw [List.foldl_cons, h l (by simp), min_self]
    exact foldl_min_const fun l hl => h l (by simp [hl])

theorem zipStar_eq {n : Nat} {ls : List (List (Dict Var Val))} (hne : ls ≠ [])
    (h : ∀ l ∈ ls, l.length = n) :
    zipStar ls = (List.range n).map fun i : Nat => ls.map fun l => l.getD i [] := by
  rcases ls with _ | ⟨l, ls⟩
  · exact (hne rfl).elim
  · unfold zipStar
    dsimp only
    rw [h l (by simp), foldl_min_const fun l hl => h l (by simp [hl])]

/-- The keys of the samples of a product. -/
theorem mergeSamples_exact {N : Option Nat} {t : List Var} {vs : List (List Var)}
    {outs : List SimOut} {out : SimOut} (h : List.Forall₂ (fun v o => ExactSamples N v o) vs outs)
    (ht : ∀ v, v ∈ t ↔ ∃ l ∈ vs, v ∈ l) (ho : mergeSamples outs = .ok out) : ExactSamples N t out := by
  rcases outs with _ | ⟨o, outs⟩
  · cases ho
  rcases vs with _ | ⟨v0, vs⟩
  · cases h
  have h1 := (List.forall₂_cons.1 h).1
  have h2 := (List.forall₂_cons.1 h).2
  rcases N with _ | n
  · rcases o with d | l
    swap
    · exact h1.1.elim
    have : ∀ (vs : List (List Var)) (outs : List SimOut),
        List.Forall₂ (fun v o => ExactSamples none v o) vs outs →
        ∃ ds, outs = ds.map SimOut.one ∧
          List.Forall₂ (fun v (d : Dict Var Val) => ∀ x, x ∈ Dict.keys d ↔ x ∈ v) vs ds := by
      intro vs outs h
      induction h with
      | nil => exact ⟨[], rfl, .nil⟩
      | @cons v o vs outs h _ ih =>
        obtain ⟨ds, rfl, h'⟩ := ih
        rcases o with d | l
        · exact ⟨d :: ds, rfl, .cons (fun x => (h.2.2 d (by simp [samplesOf])).1 x) h'⟩
        · exact h.1.elim
    obtain ⟨ds, rfl, h3⟩ := this vs outs h2
    have hm : ∀ f : SimOut → Except Err (Dict Var Val), (∀ d, f (.one d) = .ok d) →
        (ds.map SimOut.one).mapM f = .ok ds := by
      intro f hf
      clear h h2 h3 ho
      induction ds with
      | nil => rfl
      | cons d ds ih => rw [List.map_cons, List.mapM_cons, ih, hf]; rfl
    unfold mergeSamples at ho
    dsimp only at ho
    rw [hm _ fun _ => rfl] at ho
    cases ho
    refine ⟨trivial, rfl, ?_⟩
    intro s hs
    obtain rfl : s = _ := by simpa [samplesOf] using hs
    refine ⟨fun v => ?_, nodup_mergedl _⟩
    rw [mem_keys_mergedl, ht]
    have h4 : List.Forall₂ (fun v (d : Dict Var Val) => ∀ x, x ∈ Dict.keys d ↔ x ∈ v)
        (v0 :: vs) (d :: ds) := .cons (fun x => (h1.2.2 d (by simp [samplesOf])).1 x) h3
    clear hs hm ht h1 h2 h3 h
    generalize v0 :: vs = w at h4 ⊢
    generalize d :: ds = w' at h4 ⊢
    induction h4 with
    | nil => simp
    | cons h _ ih => simp only [List.mem_cons, exists_eq_or_imp, h, ih]
  · rcases o with d | l
    · exact h1.1.elim
    unfold mergeSamples at ho
    dsimp only at ho
    rcases h' : mergeSamplesMany (.many l :: outs) with e | ls <;> rw [h'] at ho
    · cases ho
    · cases ho
      have hw : ∀ o ∈ SimOut.many l :: outs, WellFormed (some n) o := by
        intro o ho
        obtain ⟨v, -, hv⟩ : ∃ v ∈ v0 :: vs, ExactSamples (some n) v o := by
          clear h' h1 h2 ht
          generalize v0 :: vs = w at h ⊢
          generalize SimOut.many l :: outs = w' at h ho
          induction h with
          | nil => cases ho
          | cons h _ ih =>
            rcases List.mem_cons.1 ho with rfl | ho
            · exact ⟨_, by simp, h⟩
            · obtain ⟨v, hv, h⟩ := ih ho
              exact ⟨v, by simp [hv], h⟩
        exact hv.1
      have he := mergeSamplesMany_eq h' hw
      rw [he, List.forall₂_map_right_iff] at h
      have hlen : ∀ l ∈ ls, l.length = n := by
        intro l hl
        clear h' hw ht he h1 h2
        generalize v0 :: vs = w at h
        induction h with
        | nil => cases hl
        | cons h _ ih =>
          rcases List.mem_cons.1 hl with rfl | hl
          · exact h.2.1
          · exact ih hl
      have hne : ls ≠ [] := by rintro rfl; cases h
      rw [zipStar_eq hne hlen]
      refine ⟨trivial, by simp [samplesOf], ?_⟩
      intro s hs
      simp only [samplesOf, List.map_map, List.mem_map, List.mem_range] at hs
      obtain ⟨i, hi, rfl⟩ := hs
      refine ⟨fun v => ?_, nodup_mergedl _⟩
      rw [Function.comp_apply, mem_keys_mergedl, ht]
      clear h' hw ht he h1 h2 hne
      generalize v0 :: vs = w at h ⊢
      induction h with
      | nil => simp
      | @cons v0 l vs ls h _ ih =>
        have hl := hlen l (by simp)
        have : ∀ x, x ∈ Dict.keys (l.getD i []) ↔ x ∈ v0 := by
          intro x
          rw [List.getD_eq_getElem?_getD, List.getElem?_eq_getElem (by omega), Option.getD_some]
          exact (h.2.2 _ (List.getElem_mem _)).1 x
        simp only [List.map_cons, List.mem_cons, exists_eq_or_imp, this,
          ih fun l hl => hlen l (by simp [hl])]

theorem productSim {I : Iface S} {T : Tab S} {P : S → Prop} (h : SimLaw I T P) :
    SimLaw (productI I) (productTab I T) fun p => ∀ c ∈ p.cgpms, P c := by
  intro p r t cs N g out hp hf ht hN ho
  obtain ⟨outs, h1, h2⟩ := Py.bind_ok (show ((Product.each (simulateOne I r t cs [] N) >>=
    fun samples => Py.lift (mergeSamples samples)) (p, g)).1 = .ok out from ho)
  have h1 : (Py.each (simulateOne I r t cs [] N) (p.cgpms, g)).1 = .ok outs := h1
  have h3 := Py.each_post (P := fun c => T.Reg c ∧ (T.Fresh c r ∨ P c))
    (Q := fun c o => ExactSamples N (onlyVars (I.outputs c) t) o) ?_ p.cgpms g outs ?_ h1
  · refine mergeSamples_exact (vs := p.cgpms.map fun c => onlyVars (I.outputs c) t)
      (by rw [List.forall₂_map_left_iff]; exact h3) ?_ h2
    intro v
    simp only [List.mem_map, exists_exists_and_eq_and, mem_onlyVars]
    constructor
    · intro hv
      obtain ⟨c, hc, hv'⟩ := List.mem_flatMap.1 (ht v hv)
      exact ⟨c, hc, hv, hv'⟩
    · rintro ⟨c, hc, hv, -⟩; exact hv
  · intro c g a hc ha
    have ha : ((if onlyVars (I.outputs c) t = [] then (Pure.pure (noValues N) : Py (S × Rng) SimOut)
      else I.simulate r (onlyVars (I.outputs c) t) (only (I.outputs c) cs) (only (I.inputs c) []) N)
      (c, g)).1 = .ok a := by
      rw [← ha]
      unfold simulateOne
      rw [Py.get_bind]
      dsimp only
      rcases N with _ | n <;> rfl
    split at ha
    · next hT =>
      cases ha
      rw [hT]
      exact exact_noValues N
    · exact h c r _ _ N g a hc.1 hc.2 (fun v hv => (mem_onlyVars.1 hv).2) hN ha
  · intro c hc
    refine ⟨hp.1 c hc, ?_⟩
    rcases hf with hf | hf
    · exact .inl fun v => ProdTab.cell_none_iff.1 (hf v) c hc
    · exact .inr (hf c hc)

/-! ## Mixtures -/

section
variable {A : Type} {AI : Iface A} {I : Iface S} {MA : Sem A} {M : Sem S} {R : Arr A S}

theorem mixSimulateOne_exact (LR : ArrLaws AI I MA M R) {m : RowMix A} {r : RowId} {k : Val}
    (hi : MA.Inv m.array) (hx : R.x m.array = m.indexer) {c : S} (hc : R.get m.array k = some c)
    {g : Rng} {t : List Var} {cs : Dict Var Val} {N : Option Nat} {out : SimOut}
    (ht : ∀ v ∈ t, v = m.indexer ∨ v ∈ AI.outputs m.array)
    (hE : onlyVars (AI.outputs m.array) t ≠ [] → ∀ out, (I.simulate r (onlyVars (AI.outputs m.array) t) (only (AI.outputs m.array) cs) [] N
      (c, g)).1 = .ok out → ExactSamples N (onlyVars (AI.outputs m.array) t) out)
    (ho : (RowMix.simulateOne AI r t cs [] N k (m, g)).1 = .ok out) :
    ExactSamples N t out ∧ (m.indexer ∈ t → ∀ s ∈ samplesOf out, Dict.get? s m.indexer = some k) := by
  have htail : ∀ (st : RowMix A × Rng) (out0 : SimOut),
      ExactSamples N (onlyVars (AI.outputs m.array) t) out0 → ((if m.indexer ∈ t then
      match N, out0 with
      | none, .one s => (Pure.pure (SimOut.one (Dict.set s m.indexer k)) : Py (RowMix A × Rng) SimOut)
      | some _, .many l => Pure.pure (.many (l.map fun s => Dict.set s m.indexer k))
      | none, .many _ => Py.throw .typeError
      | some _, .one _ => Py.throw .typeError
    else Pure.pure out0) st).1 = .ok out → ExactSamples N t out ∧
      (m.indexer ∈ t → ∀ s ∈ samplesOf out, Dict.get? s m.indexer = some k) := by
    rintro st out0 ⟨e1, e2, e3⟩ h
    by_cases hT : m.indexer ∈ t
    · rw [if_pos hT] at h
      have hkeys : ∀ s ∈ samplesOf out0, (∀ v, v ∈ Dict.keys (Dict.set s m.indexer k) ↔ v ∈ t) ∧
          (Dict.keys (Dict.set s m.indexer k)).Nodup := by
        intro s hs
        refine ⟨fun v => ?_, Dict.nodup_keys_set _ _ _ (e3 s hs).2⟩
        rw [Dict.mem_keys_set, (e3 s hs).1, mem_onlyVars]
        constructor
        · rintro (rfl | h)
          · exact hT
          · exact h.1
        · intro hv
          rcases ht v hv with rfl | h
          · exact .inl rfl
          · exact .inr ⟨hv, h⟩
      rcases N with _ | n <;> rcases out0 with s | l
      · cases h
        refine ⟨⟨trivial, rfl, ?_⟩, fun _ => ?_⟩
        · intro s' hs'
          rw [List.mem_singleton.1 hs']
          exact hkeys s (by simp [samplesOf])
        · intro s' hs'
          rw [List.mem_singleton.1 hs', Dict.get?_set]
          simp
      · exact e1.elim
      · exact e1.elim
      · cases h
        refine ⟨⟨trivial, by simpa [samplesOf] using e2, ?_⟩, fun _ => ?_⟩
        · intro s' hs'
          obtain ⟨s, hs, rfl⟩ := List.mem_map.1 hs'
          exact hkeys s hs
        · intro s' hs'
          obtain ⟨s, hs, rfl⟩ := List.mem_map.1 hs'
          rw [Dict.get?_set]
          simp
    · rw [if_neg hT] at h
      cases h
      refine ⟨⟨e1, e2, fun s hs => ⟨fun v => ?_, (e3 s hs).2⟩⟩, fun h => (hT h).elim⟩
      rw [(e3 s hs).1, mem_onlyVars]
      constructor
      · exact And.left
      · intro hv
        refine ⟨hv, (ht v hv).resolve_left ?_⟩
        rintro rfl
        exact hT hv
  unfold RowMix.simulateOne at ho
  rw [Py.get_bind] at ho
  dsimp only at ho
  by_cases hT : onlyVars (AI.outputs m.array) t = []
  · rw [if_neg (not_not.2 (show getIntersectionL (m.outputsX AI) t = [] from hT))] at ho
    have h0 := exact_noValues N
    rw [← hT] at h0
    rcases N with _ | n <;> exact htail _ _ h0 ho
  · rw [if_pos (show ¬ getIntersectionL (m.outputsX AI) t = [] from hT)] at ho
    rw [show merged (getIntersection (m.outputsX AI) []) [(m.indexer, k)] = [(R.x m.array, k)] by
      rw [hx]; rfl] at ho
    obtain ⟨out0, h1, h2⟩ := Py.bind_ok ho
    rw [onArray_eq, LR.simulate _ _ _ _ _ _ _ _ hi hc] at h1
    exact htail _ out0 (hE hT out0 h1) h2

theorem Py.mapL_post {T α β : Type} {f : α → Py T β} {P : T → Prop} {Q : α → β → Prop}
    (h1 : ∀ a s, P s → P (f a s).2) (h2 : ∀ a s b, P s → (f a s).1 = .ok b → Q a b) :
    ∀ (l : List α) (s : T) (bs : List β), P s → (Py.mapL f l s).1 = .ok bs → List.Forall₂ Q l bs := by
  intro l
  induction l with
  | nil => intro s bs _ h; cases h; exact .nil
  | cons a l ih =>
    intro s bs hs h
    obtain ⟨b, hb, h⟩ := Py.bind_ok h
    obtain ⟨bs', hbs, h⟩ := Py.bind_ok h
    cases h
    exact .cons (h2 a s b hs hb) (ih _ _ (h1 a s hs) hbs)

theorem pflipIdx_lt {l : List ℝ} {g : Rng} {i : Nat} (h : (pflipIdx l g).1 = .ok i) : i < l.length := by
  match l with
  | [] => cases h
  | [_] => cases h; simp
  | a :: b :: l =>
    unfold pflipIdx at h
    dsimp only at h
    split at h
    · next hp =>
      cases h
      have := fract_mul_lt (u := (g 0).u) hp.2
      exact invCdf_lt _ _ this.2 this.1
    · cases h

theorem logPflipIdx_lt {l : List Fl} {g : Rng} {i : Nat} (h : (logPflipIdx l g).1 = .ok i) :
    i < l.length := by
  match l with
  | [] => cases h
  | [_] => cases h; simp
  | a :: b :: l =>
    unfold logPflipIdx at h
    dsimp only at h
    split at h
    · simpa using pflipIdx_lt h
    · cases h

theorem logPflipMany_lt (l : List Fl) : ∀ (n : Nat) (g : Rng) (is : List Nat),
    (logPflipMany l n g).1 = .ok is → ∀ i ∈ is, i < l.length
  | 0, g, is, h => by cases h; simp
  | n + 1, g, is, h => by
    obtain ⟨i, hi, h⟩ := Py.bind_ok h
    obtain ⟨is', h', h⟩ := Py.bind_ok h
    cases h
    intro j hj
    rcases List.mem_cons.1 hj with rfl | hj
    · exact logPflipIdx_lt hi
    · exact logPflipMany_lt l n _ _ h' j hj

theorem logPflipMany_length (l : List Fl) : ∀ (n : Nat) (g : Rng) (is : List Nat),
    (logPflipMany l n g).1 = .ok is → is.length = n
  | 0, g, is, h => by cases h; rfl
  | n + 1, g, is, h => by
    obtain ⟨i, -, h⟩ := Py.bind_ok h
    obtain ⟨is', h', h⟩ := Py.bind_ok h
    cases h
    rw [List.length_cons, logPflipMany_length l n _ _ h']

theorem sum_count_range (zs : List Int) (b : Nat) (h : ∀ z ∈ zs, 0 ≤ z ∧ z < b) :
    ((List.range b).map fun z : Nat => zs.count (z : Int)).sum = zs.length := by
  induction zs with
  | nil => simp
  | cons z zs ih =>
    have h0 := h z (by simp)
    have : ((List.range b).map fun y : Nat => (z :: zs).count (y : Int)).sum =
        ((List.range b).map fun y : Nat => zs.count (y : Int)).sum +
          ((List.range b).map fun y : Nat => if y = z.toNat then 1 else 0).sum := by
      rw [← List.sum_map_add]
      congr 1
      refine List.map_congr_left fun y _ => ?_
      rw [List.count_cons]
      congr 1
      have : (z == (y : Int)) = decide (y = z.toNat) := by
        rw [Bool.eq_iff_iff]
        simp only [beq_iff_eq, decide_eq_true_eq]
        omega
      rw [this]
      by_cases hy : y = z.toNat <;> simp [hy]
    rw [this, ih fun y hy => h y (by simp [hy]), List.length_cons]
    congr 1
    have hz : z.toNat < b := by omega
    clear this ih h
    induction b with
    | zero => omega
    | succ b ihb =>
      rw [List.range_succ, List.map_append, List.sum_append]
      by_cases hb : z.toNat = b
      · have : ((List.range b).map fun y : Nat => if y = z.toNat then 1 else 0).sum = 0 := by
          apply List.sum_eq_zero
          intro x hx
          obtain ⟨y, hy, rfl⟩ := List.mem_map.1 hx
          rw [List.mem_range] at hy
          rw [if_neg (by omega)]
        rw [this]
        simp [hb]
      · have := ihb ⟨h0.1, by omega⟩ (by omega)
        rw [this]
        simp [Ne.symm hb]

theorem sum_filter_ne_zero (l : List (Int × Nat)) :
    ((l.filter fun zn => decide (zn.2 ≠ 0)).map Prod.snd).sum = (l.map Prod.snd).sum := by
  induction l with
  | nil => rfl
  | cons a l ih =>
    by_cases h : a.2 = 0
    · rw [List.filter_cons_of_neg (by simpa using h), ih, List.map_cons, List.sum_cons, h, zero_add]
    · rw [List.filter_cons_of_pos (by simpa using h), List.map_cons, List.sum_cons, ih,
        List.map_cons, List.sum_cons]

theorem le_foldl_max : ∀ (zs : List Int) (b : Int), b ≤ zs.foldl max b ∧ ∀ z ∈ zs, z ≤ zs.foldl max b
  | [], b => by simp
  | z :: zs, b => by
    obtain ⟨h1, h2⟩ := le_foldl_max zs (max b z)
    rw [List.foldl_cons]
    refine ⟨le_trans (le_max_left _ _) h1, ?_⟩
    intro y hy
    rcases List.mem_cons.1 hy with rfl | hy
    · exact le_trans (le_max_right _ _) h1
    · exact h2 y hy

/-- The counts sum to the number of draws, none is zero, and the clusters are listed in increasing
order. -/
theorem bincount_ok {zs : List Int} {l : List (Int × Nat)} (h : bincount zs = .ok l) :
    (l.map Prod.snd).sum = zs.length ∧ (∀ zn ∈ l, zn.2 ≠ 0 ∧ zn.1 ∈ zs) ∧
      l.Pairwise fun a b => a.1 < b.1 := by
  unfold bincount at h
  split at h
  · cases h
  next hn =>
  have hn : ∀ z ∈ zs, 0 ≤ z := by simpa using hn
  cases h
  refine ⟨?_, ?_, ?_⟩
  · rw [sum_filter_ne_zero, List.map_map]
    refine sum_count_range zs _ fun z hz => ⟨hn z hz, ?_⟩
    have := (le_foldl_max zs 0).2 z hz
    have := (le_foldl_max zs 0).1
    omega
  · intro zn hzn
    obtain ⟨h1, h2⟩ := List.mem_filter.1 hzn
    obtain ⟨z, -, rfl⟩ := List.mem_map.1 h1
    have h2 : zs.count (z : Int) ≠ 0 := by simpa using h2
    exact ⟨h2, List.count_pos_iff.1 (Nat.pos_of_ne_zero h2)⟩
  · refine List.Pairwise.filter _ ?_
    rw [List.pairwise_map]
    refine List.Pairwise.imp ?_ List.pairwise_lt_range
    intro a b h
    exact Int.ofNat_lt.2 h

theorem chainSamples_eq : ∀ {outs : List SimOut} {l : List (Dict Var Val)},
    RowMix.chainSamples outs = .ok l → l = outs.flatMap samplesOf
  | [], l, h => by cases h; rfl
  | .one _ :: _, l, h => by cases h
  | .many l' :: outs, l, h => by
    unfold RowMix.chainSamples at h
    rcases h' : RowMix.chainSamples outs with e | ls <;> rw [h'] at h
    · cases h
    · cases h
      rw [List.flatMap_cons, ← chainSamples_eq h']
      rfl

variable {X : Prim → Nat → Prop} {Z : List Var} {T : Tab S} {P : S → Prop}

theorem forall₂_flatMap_length {α β γ : Type} {f : β → List γ} {n : α → Nat} {l : List α} {l' : List β}
    (h : List.Forall₂ (fun a b => (f b).length = n a) l l') :
    (l'.flatMap f).length = (l.map n).sum := by
  induction h with
  | nil => rfl
  | cons h _ ih => rw [List.flatMap_cons, List.length_append, h, ih, List.map_cons, List.sum_cons]

theorem forall₂_drop_mem {α β : Type} {Q : α → β → Prop} {l : List α} {l' : List β}
    (h : List.Forall₂ (fun a b => a ∈ l → Q a b) l l') : List.Forall₂ Q l l' := by
  have : ∀ {l0 : List α} {l l'}, (∀ a ∈ l, a ∈ l0) →
      List.Forall₂ (fun a b => a ∈ l0 → Q a b) l l' → List.Forall₂ Q l l' := by
    intro l0 l l' hl h
    induction h with
    | nil => exact .nil
    | cons h _ ih => exact .cons (h (hl _ (by simp))) (ih fun a ha => hl a (by simp [ha]))
  exact this (fun _ h => h) h

theorem forall₂_exists_mem {α β : Type} {Q : α → β → Prop} {l : List α} {l' : List β}
    (h : List.Forall₂ Q l l') {b : β} (hb : b ∈ l') : ∃ a ∈ l, Q a b := by
  induction h with
  | nil => cases hb
  | cons h _ ih =>
    rcases List.mem_cons.1 hb with rfl | hb
    · exact ⟨_, by simp, h⟩
    · obtain ⟨a, ha, h⟩ := ih hb
      exact ⟨a, by simp [ha], h⟩

theorem forall₂_exists {α β : Type} {Q : α → β → Prop} {l : List α} {l' : List β}
    (h : List.Forall₂ Q l l') {b : β} (hb : b ∈ l') : ∃ a, Q a b :=
  (forall₂_exists_mem h hb).imp fun _ => And.right

/-- What `simulate` of an unheld row without a given cluster returns. -/
theorem simulateFresh_exact (L : Laws I M) (LA : Laws AI MA) (LR : ArrLaws AI I MA M R) (K : TLaws I M Z T)
    (hS : SimLaw I T P) {m : RowMix A}
    (h : MixReg AI I MA X R Z T m)
    (hget : ∀ z, m.rowDivide.Legal z → (∃ k : Int, z = .num (k : ℚ)) → ∃ c, R.get m.array z = some c)
    {r : RowId} (hr : Dict.get? m.rowidToComponent r = none)
    {t : List Var} {cs : Dict Var Val} {N : Option Nat} {g : Rng} {out : SimOut}
    (ht : ∀ v ∈ t, v = m.indexer ∨ v ∈ AI.outputs m.array) (hN : N ≠ some 0)
    (ho : (RowMix.simulateFresh AI r t cs [] N (m, g)).1 = .ok out) :
    ExactSamples N t out ∧ (m.indexer ∈ t → (samplesOf out).Pairwise fun a b =>
      ∃ i j : Int, Dict.get? a m.indexer = some (.num (i : ℚ)) ∧
        Dict.get? b m.indexer = some (.num (j : ℚ)) ∧ i ≤ j) := by
  obtain ⟨supp, w, hsupp, hw, -⟩ := Prim.prior h.divides h.inv.1 h.out ((h.data r).trans hr)
  unfold RowMix.simulateFresh at ho
  rw [Py.get_bind] at ho
  dsimp only at ho
  rw [Py.lift_bind, hsupp] at ho
  dsimp only at ho
  have hm : RowMix.E0 MA m m := ⟨primLaws.refl _ h.inv.1, LA.refl _ h.inv.2.1, rfl⟩
  obtain ⟨zw, hzw, ho⟩ := Py.bind_ok ho
  have hzw : zw.length = supp.length := (Py.mapL_post (P := fun _ => True) (Q := fun _ _ => True)
    (fun _ _ _ => trivial) (fun _ _ _ _ _ => trivial) _ _ _ trivial hzw).length_eq.symm
  have h1 := RowMix.keeps_mapL LA (fun z : Int => RowMix.keeps_logpdf LA (AI := AI) r
    [(m.indexer, .num z)] cs []) supp m g hm
  generalize (Py.mapL (fun z : Int => RowMix.logpdf AI r [(m.indexer, .num (z : ℚ))] cs []) supp
    (m, g)).2 = st1 at ho h1
  obtain ⟨is, his, ho⟩ := Py.bind_ok ho
  have hlen : is.length = N.getD 1 := by
    have := logPflipMany_length _ _ _ _ (show (logPflipMany zw _ st1.2).1 = .ok is from his)
    rw [this]
    rcases N with _ | n
    · rfl
    · dsimp only
      rw [if_neg (by rintro rfl; exact hN rfl)]
      rfl
  have hlt := logPflipMany_lt _ _ _ _ (show (logPflipMany zw _ st1.2).1 = .ok is from his)
  rw [hzw] at hlt
  generalize hst2 : (Py.onSnd (S := RowMix A) (logPflipMany zw _) st1).2 = st2 at ho
  have h2 : RowMix.E0 MA m st2.1 := by rw [← hst2]; exact h1
  rw [Py.lift_bind] at ho
  rcases hb : bincount (is.map fun i : Nat => supp.getD i 0) with e | counts <;> rw [hb] at ho
  · cases ho
  dsimp only at ho
  obtain ⟨b1, b2, b3⟩ := bincount_ok hb
  obtain ⟨outs, houts, ho⟩ := Py.bind_ok ho
  have hmem : ∀ zn ∈ counts, zn.2 ≠ 0 ∧ zn.1 ∈ supp := by
    intro zn hzn
    obtain ⟨c1, c2⟩ := b2 zn hzn
    obtain ⟨i, hi, hi'⟩ := List.mem_map.1 c2
    refine ⟨c1, ?_⟩
    rw [← hi', List.getD_eq_getElem?_getD, List.getElem?_eq_getElem (hlt i hi), Option.getD_some]
    exact List.getElem_mem _
  have h3 : List.Forall₂ (fun (zn : Int × Nat) o => zn ∈ counts → ExactSamples (some zn.2) t o ∧
      (m.indexer ∈ t → ∀ s ∈ samplesOf o, Dict.get? s m.indexer = some (.num (zn.1 : ℚ))))
      counts outs := by
    refine Py.mapL_post (P := fun st => RowMix.E0 MA m st.1) ?_ ?_ counts st2 outs h2 houts
    · intro zn st hst
      exact hst.trans LA (RowMix.keeps_simulateOne LA _ _ _ _ _ _ st.1 st.2 (hst.right LA))
    · intro zn st o hst ho hzn
      obtain ⟨c1, c2⟩ := hmem zn hzn
      obtain ⟨c, hc⟩ := hget _ (hw _ c2).2 ⟨zn.1, rfl⟩
      obtain ⟨c', hc', hE⟩ := LR.get_E _ _ _ _ hst.2.1 hc
      have hreg := (h.comp _ _ hc)
      have hfr := h.fresh r _ _ hc (by rw [hr]; simp)
      have hx : R.x st.1.array = st.1.indexer := by
        rw [← LR.E_x _ _ hst.2.1, h.x_eq, hst.indexer]
      have hout : AI.outputs st.1.array = AI.outputs m.array := (hst.outputsX LA).symm
      rw [hst.indexer]
      refine mixSimulateOne_exact LR (LA.inv' hst.2.1) hx hc' ?_ ?_ ho
      · rw [← hst.indexer, hout]; exact ht
      · intro _ o' ho'
        refine hS c' r _ _ _ _ o' (K.reg_E _ _ hE hreg.1) (.inl ?_) ?_ (by simpa using c1) ho'
        · intro v
          rw [← K.cell_E _ _ hE hreg.1]; exact hfr v
        · intro v hv
          rw [← (LA.outputs_E hst.2.1), ← hreg.2, L.outputs_E hE] at hv
          exact (mem_onlyVars.1 hv).2
  have h3 := forall₂_drop_mem h3
  have hl : (outs.flatMap samplesOf).length = N.getD 1 := by
    rw [forall₂_flatMap_length (n := Prod.snd) (h3.imp fun zn o hq => hq.1.2.1), b1, List.length_map,
      hlen]
  have hk : ∀ s ∈ outs.flatMap samplesOf, (∀ v, v ∈ Dict.keys s ↔ v ∈ t) ∧ (Dict.keys s).Nodup := by
    intro s hs
    obtain ⟨o, ho, hs⟩ := List.mem_flatMap.1 hs
    obtain ⟨zn, hq⟩ := forall₂_exists h3 ho
    exact hq.1.2.2 s hs
  have hp : m.indexer ∈ t → (outs.flatMap samplesOf).Pairwise fun a b =>
      ∃ i j : Int, Dict.get? a m.indexer = some (.num (i : ℚ)) ∧
        Dict.get? b m.indexer = some (.num (j : ℚ)) ∧ i ≤ j := by
    intro hx
    clear * - h3 b3 hx
    induction h3 with
    | nil => exact .nil
    | @cons zn o counts outs hq hqs ih =>
      rw [List.flatMap_cons, List.pairwise_append]
      rw [List.pairwise_cons] at b3
      refine ⟨List.pairwise_of_forall_mem_list fun a ha b hb => ?_, ih b3.2, ?_⟩
      · exact ⟨zn.1, zn.1, hq.2 hx a ha, hq.2 hx b hb, le_refl _⟩
      · intro a ha b hb
        obtain ⟨o', ho', hb⟩ := List.mem_flatMap.1 hb
        obtain ⟨zn', hzn', hq'⟩ := forall₂_exists_mem hqs ho'
        exact ⟨zn.1, zn'.1, hq.2 hx a ha, hq'.2 hx b hb, le_of_lt (b3.1 zn' hzn')⟩
  rw [Py.lift_bind] at ho
  rcases hch : RowMix.chainSamples outs with e | all <;> rw [hch] at ho
  · cases ho
  dsimp only at ho
  rw [← chainSamples_eq hch] at hl hk hp
  rcases N with _ | n
  · rcases all with _ | ⟨s, all⟩
    · cases ho
    · cases ho
      have hall : all = [] := by
        simpa using hl
      subst hall
      exact ⟨⟨trivial, rfl, hk⟩, hp⟩
  · cases ho
    exact ⟨⟨trivial, hl, hk⟩, hp⟩

/-- Mixtures return exact samples. -/
theorem mixSim (L : Laws I M) (LA : Laws AI MA) (LR : ArrLaws AI I MA M R) (K : TLaws I M Z T)
    (hS : SimLaw I T P) {m : RowMix A} (h : MixReg AI I MA X R Z T m)
    (hget : ∀ z, m.rowDivide.Legal z → (∃ k : Int, z = .num (k : ℚ)) → ∃ c, R.get m.array z = some c)
    {r : RowId} (hr : Dict.get? m.rowidToComponent r = none ∨ ∀ k c, R.get m.array k = some c → P c)
    {t : List Var} {cs : Dict Var Val} {N : Option Nat} {g : Rng} {out : SimOut}
    (ht : ∀ v ∈ t, v = m.indexer ∨ v ∈ AI.outputs m.array) (hN : N ≠ some 0)
    (ho : (RowMix.simulate AI r t cs [] N (m, g)).1 = .ok out) : ExactSamples N t out := by
  unfold RowMix.simulate at ho
  rw [Py.get_bind] at ho
  dsimp only at ho
  rcases hk : Dict.get? m.rowidToComponent r with _ | k <;> rw [hk] at ho <;> dsimp only at ho
  · rcases hz : Dict.get? cs m.indexer with _ | z <;> rw [hz] at ho <;> dsimp only at ho
    · exact (simulateFresh_exact L LA LR K hS h hget hk ht hN ho).1
    · obtain ⟨supp, w, hsupp, hw, -⟩ := Prim.prior h.divides h.inv.1 h.out ((h.data r).trans hk)
      rw [Py.lift_bind, hsupp] at ho
      dsimp only at ho
      split at ho
      · cases ho
      · next hz' =>
        obtain ⟨k, hk', rfl⟩ := not_not.1 hz'
        obtain ⟨c, hc⟩ := hget _ (hw k hk').2 ⟨k, rfl⟩
        refine (mixSimulateOne_exact LR h.inv.2.1 h.x_eq hc ht ?_ ho).1
        intro _ o ho
        refine hS c r _ _ N g o (h.comp _ _ hc).1 (.inl (h.fresh r _ c hc (by rw [hk]; simp))) ?_ hN ho
        rw [(h.comp _ _ hc).2]
        exact fun v hv => (mem_onlyVars.1 hv).2
  · obtain ⟨-, -, ho⟩ := Py.bind_ok ho
    obtain ⟨-, c, hc, -⟩ := h.books r k hk
    have hPc : P c := by
      rcases hr with hr | hr
      · rw [hr] at hk; cases hk
      · exact hr k c hc
    have hst : ∀ (p : Prop) [Decidable p], (Py.assert p (m, g)).2 = (m, g) := by
      intro p _
      rw [Py.assert_apply]
      split <;> rfl
    rw [hst] at ho
    refine (mixSimulateOne_exact LR h.inv.2.1 h.x_eq hc ht ?_ ho).1
    intro _ o ho
    refine hS c r _ _ N g o (h.comp _ _ hc).1 (.inr hPc) ?_ hN ho
    rw [(h.comp _ _ hc).2]
    exact fun v hv => (mem_onlyVars.1 hv).2

end

/-! ## Models of any depth -/

theorem noUC_strip : ∀ (n : Nat) (c : Cgpm n), NoNormalUC n c → NoNormalUC n (withoutParams n c)
  | 0, p, h => by
    have : Prim.kind (primWithoutParams p) = Prim.kind p := by cases p <;> rfl
    exact fun hk => h (this.symm.trans hk)
  | n + 1, .prim p, h => by
    have : Prim.kind (primWithoutParams p) = Prim.kind p := by cases p <;> rfl
    exact fun hk => h (this.symm.trans hk)
  | n + 1, .product p, h => by
    intro c hc
    obtain ⟨c0, h0, rfl⟩ := List.mem_map.1 hc
    exact noUC_strip n c0 (h c0 h0)
  | n + 1, .finArray a, h => by
    intro c hc
    obtain ⟨c0, h0, rfl⟩ := List.mem_map.1 hc
    exact noUC_strip n c0 (h c0 h0)
  | n + 1, .flexArray a, h => by
    refine ⟨noUC_strip n _ h.1, ?_⟩
    intro c hc
    obtain ⟨c0, h0, rfl⟩ := List.mem_map.1 hc
    exact noUC_strip n c0.2 (h.2 c0 h0)
  | n + 1, .finMix m, h => by
    intro c hc
    obtain ⟨c0, h0, rfl⟩ := List.mem_map.1 hc
    exact noUC_strip n c0 (h c0 h0)
  | n + 1, .flexMix m, h => by
    refine ⟨noUC_strip n _ h.1, ?_⟩
    intro c hc
    obtain ⟨c0, h0, rfl⟩ := List.mem_map.1 hc
    exact noUC_strip n c0.2 (h.2 c0 h0)

theorem inside_fst {A S T α : Type} (f : A → S) (m : Py (A × T) α) (st : A × T) :
    (Py.inside f m st).1 = (m st).1 := rfl

theorem cgpmSim (Z : List Var) : (n : Nat) → SimLaw (cgpmI n) (cgpmTab Z n) (NoNormalUC n)
  | 0 => by
    intro p r t cs N g out hp hf _ _ ho
    have hp : (primTab Z).Reg p := hp
    obtain ⟨o, hout⟩ := hp.1.1.out
    refine prim_exact hp.1.1 ?_ (show (Prim.simulate p r t cs [] N g).1 = .ok out from ho)
    rcases hf with hf | hf
    · left
      rw [← Dict.get?_eq_none_iff]
      exact (if_pos (by rw [hout]; simp)).symm.trans (hf o)
    · exact .inr hf
  | n + 1 => by
    intro c r t cs N g out hp hf ht hN ho
    cases c with
    | prim p =>
      have hp : (primTab Z).Reg p := hp
      obtain ⟨o, hout⟩ := hp.1.1.out
      refine prim_exact hp.1.1 ?_ (show (Prim.simulate p r t cs [] N g).1 = .ok out from ho)
      rcases hf with hf | hf
      · left
        rw [← Dict.get?_eq_none_iff]
        exact (if_pos (by rw [hout]; simp)).symm.trans (hf o)
      · exact .inr hf
    | product p => exact productSim (cgpmSim Z n) p r t cs N g out hp hf ht hN ho
    | finArray a => exact hp.elim
    | flexArray a => exact hp.elim
    | finMix m =>
      have hp : (finMixTab (cgpmI n) (cgpmSem n) Z (cgpmTab Z n)).Reg m := hp
      refine mixSim (P := NoNormalUC n) (cgpmLaws n) (finArrayLaws (cgpmLaws n))
        (finArrLaws _ _) (cgpmTLaws Z n) (cgpmSim Z n) hp (finMix_get hp) ?_ ?_ hN ho
      · rcases hf with hf | hf
        · exact .inl (finMix_unheld hf)
        · right
          intro k c hc
          obtain ⟨j, -, hj, -⟩ := FinArray.get_some hc
          exact hf c (List.mem_of_getElem? hj)
      · intro v hv
        have : v ∈ m.rowDivide.outputs ++ (finArrayI (cgpmI n)).outputs m.array := ht v hv
        rw [hp.out] at this
        simpa using this
    | flexMix m =>
      have hp : (flexMixTab (cgpmI n) (cgpmSem n) Z (cgpmTab Z n)).Reg m := hp
      refine mixSim (P := NoNormalUC n) (cgpmLaws n) (flexArrayLaws (cgpmLaws n))
        (flexArrLaws (cgpmLaws n)) (cgpmTLaws Z n) (cgpmSim Z n) hp (fun z _ _ => ⟨_, rfl⟩) ?_ ?_ hN ho
      · rcases hf with hf | hf
        · exact .inl (flexMix_unheld hf)
        · right
          intro k c hc
          have hc : m.array.comp (cgpmSem n) k = c := Option.some.inj hc
          unfold FlexArray.comp at hc
          rcases hk : Dict.get? m.array.cgpms k with _ | c1 <;> rw [hk] at hc
          · have hc : (cgpmSem n).strip m.array.base = c := hc
            rw [← hc, strip_eq]
            exact noUC_strip n _ hf.1
          · have hc : c1 = c := hc
            rw [← hc]
            exact hf.2 _ (Dict.mem_of_get? hk)
      · intro v hv
        have : v ∈ m.rowDivide.outputs ++ (flexArrayI (cgpmI n)).outputs m.array := ht v hv
        rw [hp.out] at this
        simpa using this

end Cgpm2
