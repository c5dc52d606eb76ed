import Verif.Lemmas.ConcreteDensity
import Verif.Lemmas.MixInputs
import Verif.Props.Composite
import Verif.Spec.Held

/-!
# Properties C31, C32, C33, C68: where the row mixtures do not do what their user expects

Each property is false of the code; the theorem named `…_violated` proves its negation on reachable
states, and `…_partial` proves what is left of it.
-/

namespace Cgpm2
open Spec

variable {n : Nat}

namespace Concrete

/-- A mixture of one categorical column, its rows divided by a CRP. -/
noncomputable def small : FlexMix Prim :=
  ⟨.crp (Crp.init [5] [] [] []), FlexArray.init (.categorical (Categorical.init [1] [] [] [] 3)) 5, []⟩

theorem small_built : Built 1 (.flexMix small : Node Prim) :=
  .flexMix (n := 0) crp0_legally (.prim0 cat0_legally)
    (Props.C13_fresh (.categorical 1 [] [] [] 3)
      (by simp [LegalHypers, Categorical.init, Dict.get?])) rfl

/-- The state a rejected observation leaves behind. -/
noncomputable def small' : FlexMix Prim :=
  ⟨.crp { Crp.init [5] [] [] [] with data := [(some 7, 0)], N := 1, counts := [(0, 1)] },
   { FlexArray.init (.categorical (Categorical.init [1] [] [] [] 3)) 5 with
      cgpms := [(.num 0, .categorical (Categorical.init [1] [] [] [] 3))] }, [(some 7, .num 0)]⟩

theorem small_observe (g : Rng) : ∃ e, (cgpmI 1).observe (some 7) [(5, .num 0), (1, .num 99)] []
    ((.flexMix small : Node Prim), g) = (.error e, ((.flexMix small' : Node Prim), g)) := by
  exact ⟨.valueError, rfl⟩

theorem small'_built : Built 1 (.flexMix small' : Node Prim) := by
  have h := Built.call (n := 1) (c := (.flexMix small : Node Prim)) small_built
    (.observe (some 7) [(5, .num 0), (1, .num 99)] []) (fun _ => ⟨0, 0⟩)
  exact h

/-- Two blocks of two categorical columns each, selected by the input 8. -/
noncomputable def arr : FinArray Prim :=
  ⟨[.categorical (Categorical.init [1] [] [] [] 3), .categorical (Categorical.init [1] [] [] [] 3)], 8, []⟩

/-- A mixture of such arrays, its rows divided by a coin. -/
noncomputable def inputMix : FinMix (Node Prim) :=
  ⟨.bernoulli (Bernoulli.init [5] [] [] []), ⟨[.finArray arr, .finArray arr], 5, []⟩, []⟩

theorem inputMix_built : Built 2 (.finMix inputMix : Node (Node Prim)) := by
  refine .finMix (n := 1) (d := .bernoulli (Bernoulli.init [5] [] [] []))
    (cs := [(.finArray arr : Node Prim), (.finArray arr : Node Prim)]) bern0_legally (.inr rfl) ?_ rfl
  have h : Built 1 (.finArray arr : Node Prim) := by
    refine .finArray (n := 0) (cs := [.categorical (Categorical.init [1] [] [] [] 3),
      .categorical (Categorical.init [1] [] [] [] 3)]) (x := 8) ?_ rfl
    intro c hc
    have hc : c = .categorical (Categorical.init [1] [] [] [] 3) := by
      rcases List.mem_cons.1 hc with h | h
      · exact h
      · exact List.mem_singleton.1 h
    subst hc
    exact .prim0 cat0_legally
  intro c hc
  have hc : c = (.finArray arr : Node Prim) := by
    rcases List.mem_cons.1 hc with h | h
    · exact h
    · exact List.mem_singleton.1 h
  subst hc
  exact h

/-- A mixture of one component, its rows divided by a CRP, as the constructor accepts it. -/
noncomputable def single : FinMix Prim :=
  ⟨.crp (Crp.init [5] [] [] []), ⟨[.categorical (Categorical.init [1] [] [] [] 3)], 5, []⟩, []⟩

end Concrete

theorem crp_finite {x N : Int} {counts : Dict Int Int} {alpha : ℝ} {v : Fl}
    (h : Crp.calcPredictiveLogp x N counts alpha = .ok v) : ∃ y, v = .fin y := by
  have key : ∀ a b : Except Err ℝ, (do
      let x ← a
      let y ← b
      pure (Fl.fin (x - y))) = Except.ok v → ∃ y, v = .fin y := by
    rintro (_ | x) (_ | y) h
    · cases h
    · cases h
    · cases h
    · exact ⟨_, (Except.ok.inj h).symm⟩
  exact key _ _ h

theorem popItem_merged {d : Dict Var Val} {x : Var} {z : Val} (hd : (Dict.keys d).Nodup)
    (hx : x ∉ Dict.keys d) : popItem (merged d [(x, z)]) x = .ok (z, d) := by
  rw [merged_append (by
    rw [List.nodup_append]
    refine ⟨hd, by simp [Dict.keys], ?_⟩
    intro a ha b hb
    simp only [Dict.keys, List.map_cons, List.map_nil, List.mem_singleton] at hb
    rintro rfl
    exact hx (hb ▸ ha))]
  have h1 : Dict.get? (d ++ [(x, z)]) x = some z := by
    rw [Dict.get?_append, (Dict.get?_eq_none_iff d x).2 hx]
    simp [Dict.get?]
  have h2 : Dict.del (d ++ [(x, z)]) x = d := by
    clear hd h1
    induction d with
    | nil => simp [Dict.del]
    | cons kv d ih =>
      simp only [Dict.keys_cons, List.mem_cons, not_or] at hx
      simp [Dict.del, Ne.symm hx.1, ih hx.2]
  unfold popItem
  rw [h1, h2]

theorem FinArray.onCgpm_at {S α : Type} (f : Py (S × Rng) α) {a : FinArray S} {z : Val} {j : Nat} {b : S}
    (hj : pyIndex a.cgpms.length z = .ok j) (hb : a.cgpms[j]? = some b) (g : Rng) :
    FinArray.onCgpm z f (a, g) =
      ((f (b, g)).1, ({ a with cgpms := a.cgpms.set j (f (b, g)).2.1 }, (f (b, g)).2.2)) := by
  unfold FinArray.onCgpm
  dsimp only
  rw [hj]
  dsimp only
  rw [hb]

theorem FinArray.observe_at {S : Type} (I : Iface S) {a : FinArray S} {r : RowId} {o i i' : Dict Var Val}
    {z : Val} {j : Nat} {b : S} (hp : popItem i a.indexer = .ok (z, i'))
    (hj : pyIndex a.cgpms.length z = .ok j) (hb : a.cgpms[j]? = some b) (g : Rng) :
    FinArray.observe I r o i (a, g) = match I.observe r o i' (b, g) with
      | (.ok _, (b', g')) => (.ok (), ({ a with
          cgpms := a.cgpms.set j b', rowidToIndex := Dict.set a.rowidToIndex r z }, g'))
      | (.error e, (b', g')) => (.error e, ({ a with cgpms := a.cgpms.set j b' }, g')) := by
  unfold FinArray.observe
  rw [Py.get_bind]
  dsimp only
  rw [hp, Py.lift_bind]
  dsimp only
  rw [Py.bind_apply, FinArray.onCgpm_at _ hj hb]
  rcases hx : I.observe r o i' (b, g) with ⟨_ | _, b', g'⟩
  · rfl
  · rfl

section Ask
variable {S : Type} {I : Iface S} {st st' : S × Rng}

theorem ask_observe_error {r o i e} (h : I.observe r o i st = (.error e, st')) :
    ask I (.observe r o i) st = (.error e, st') := by
  change ((I.observe r o i st).1.map _, (I.observe r o i st).2) = _
  rw [h]; rfl

theorem ask_logpdf_congr {r t c i i'} (h : I.logpdf r t c i st = I.logpdf r t c i' st) :
    ask I (.logpdf r t c i) st = ask I (.logpdf r t c i') st := by
  change ((I.logpdf r t c i st).1.map _, (I.logpdf r t c i st).2) = _
  rw [h]; rfl

theorem ask_simulate_congr {r t c i i' N} (h : I.simulate r t c i N st = I.simulate r t c i' N st) :
    ask I (.simulate r t c i N) st = ask I (.simulate r t c i' N) st := by
  change ((I.simulate r t c i N st).1.map _, (I.simulate r t c i N st).2) = _
  rw [h]; rfl

end Ask

namespace RowMix
variable {A : Type} {AI : Iface A}

theorem observe_rejected {m : RowMix A} {r : RowId} {o : Dict Var Val} {z : Val} {x : Var}
    (hx : m.rowDivide.outputs = [x]) (hr : Dict.get? m.rowidToComponent r = none)
    (ho : Dict.get? o x = some z) {e : Err}
    (he : Prim.observe r [(x, z)] [] m.rowDivide = (.error e, m.rowDivide)) (g : Rng) :
    observe AI r o [] (m, g) = (.error e, (m, g)) := by
  have hi : m.indexer = x := by rw [indexer, hx]; rfl
  unfold observe
  rw [Py.get_bind]
  dsimp only
  rw [hr]
  dsimp only
  rw [hi, ho]
  dsimp only
  rw [getIntersection_nil, Py.pure_bind', Py.bind_apply, onDivide_eq, he]

end RowMix

theorem Prim.observe_error {p : Prim} (h : p.Inv) {r : RowId} {o i : Dict Var Val} {e : Err}
    (he : (p.observe r o i).1 = .error e) : p.observe r o i = (.error e, p) := by
  obtain ⟨x, hx⟩ := h.out
  rcases Prim.observe_cases hx r o i with ⟨e', h'⟩ | ⟨v, _, _, _, _, h'⟩
  · rw [h'] at he ⊢; cases he; rfl
  · rw [h'] at he; cases he

namespace Props

/-! ### C31 -/

/-- The property that fails: an observation that a component rejects changes the mixture.  Row 7
is put into cluster 0 with the value 99 of a column of three symbols; the call raises, and the row
is from then on held in cluster 0: the cluster 1, impossible before, has become possible for other
rows, and row 7 answers with probability 1 for any cluster. -/
theorem C31_violated : ∃ (c c' : Cgpm 1) (e : Err) (o : Dict Var Val) (q q' : Ask), Built 1 c ∧
    ∀ g : Rng, ask (cgpmI 1) (.observe (some 7) o []) (c, g) = (.error e, (c', g)) ∧
      q = .logpdf (some 8) [(5, .num 1)] [] [] ∧ q' = .logpdf (some 7) [(5, .num 1)] [] [] ∧
      answers (cgpmI 1) [q] (c, g) ≠ answers (cgpmI 1) [q] (c', g) ∧
      answers (cgpmI 1) [q'] (c, g) ≠ answers (cgpmI 1) [q'] (c', g) := by
  refine ⟨(.flexMix Concrete.small : Node Prim), (.flexMix Concrete.small' : Node Prim), .valueError,
    [(5, .num 0), (1, .num 99)], _, _, Concrete.small_built, fun g => ⟨rfl, rfl, rfl, ?_, ?_⟩⟩
  · have h1 : answers (cgpmI 1) [.logpdf (some 8) [(5, .num 1)] [] []]
        ((.flexMix Concrete.small : Node Prim), g) = [.ok (.number .ninf)] := rfl
    have h2 : ∀ x, Crp.calcPredictiveLogp 1 1 [(0, 1)] 1 = x →
        answers (cgpmI 1) [.logpdf (some 8) [(5, .num 1)] [] []]
        ((.flexMix Concrete.small' : Node Prim), g) = [match x with
          | .ok a => .ok (.number (a + 0 - 0))
          | .error e => .error e] := by
      rintro _ rfl
      show [(ask _ _ _).1] = _
      congr 1
      change ((RowMix.logpdf (flexArrayI _) (some 8) [(5, .num 1)] [] [] (Concrete.small', g)).1).map _ = _
      unfold RowMix.logpdf RowMix.logpdfWith
      rw [Py.get_bind]
      change (Except.map _ ((Py.lift (Crp.calcPredictiveLogp 1 1 [(0, 1)] 1) >>= _) _).1) = _
      rw [Py.lift_bind]
      rcases Crp.calcPredictiveLogp 1 1 [(0, 1)] 1 with e | v
      · rfl
      · rfl
    rw [h1, h2 _ rfl]
    rcases hx : Crp.calcPredictiveLogp 1 1 [(0, 1)] 1 with e | v
    · simp
    · obtain ⟨y, rfl⟩ := crp_finite hx
      dsimp only
      intro h
      have h : (Fl.ninf) = Fl.fin y + 0 - 0 := by
        simpa only [List.cons.injEq, Except.ok.injEq, Answer.number.injEq, and_true] using h
      cases h
  · intro h
    have h1 : answers (cgpmI 1) [.logpdf (some 7) [(5, .num 1)] [] []]
        ((.flexMix Concrete.small : Node Prim), g) = [.ok (.number .ninf)] := rfl
    have h2 : answers (cgpmI 1) [.logpdf (some 7) [(5, .num 1)] [] []]
        ((.flexMix Concrete.small' : Node Prim), g) = [.ok (.number (.fin 0))] := rfl
    rw [h1, h2] at h
    simp at h

/-- What is left: if the divider rejects the cluster supplied for a new row, nothing changes.
Missing: the component may reject the rest of the row after the divider has accepted it. -/
theorem C31_finite_partial {m : FinMix (Cgpm n)} (h : Built (n + 1) (.finMix m : Node (Cgpm n)))
    {x : Var} (hx : m.rowDivide.outputs = [x]) {r : RowId}
    (hr : Dict.get? m.rowidToComponent r = none) {o : Dict Var Val} {z : Val}
    (ho : Dict.get? o x = some z) {e : Err}
    (he : (Prim.observe r [(x, z)] [] m.rowDivide).1 = .error e) (g : Rng) :
    ask (cgpmI (n + 1)) (.observe r o []) ((.finMix m : Node (Cgpm n)), g) =
      (.error e, ((.finMix m : Node (Cgpm n)), g)) := by
  have hi : (finMixSem (cgpmSem n)).Inv m := built_inv h
  have hd := RowMix.observe_rejected (AI := finArrayI (cgpmI n)) hx hr ho
    (Prim.observe_error hi.1.1 he) g
  have : (cgpmI (n + 1)).observe r o [] ((.finMix m : Node (Cgpm n)), g) =
      (.error e, ((.finMix m : Node (Cgpm n)), g)) := by
    change Py.inside _ (RowMix.observe (finArrayI (cgpmI n)) r o []) (m, g) = _
    unfold Py.inside
    rw [hd]
  exact ask_observe_error this

/-- The same for flexible mixtures. -/
theorem C31_flexible_partial {m : FlexMix (Cgpm n)} (h : Built (n + 1) (.flexMix m : Node (Cgpm n)))
    {x : Var} (hx : m.rowDivide.outputs = [x]) {r : RowId}
    (hr : Dict.get? m.rowidToComponent r = none) {o : Dict Var Val} {z : Val}
    (ho : Dict.get? o x = some z) {e : Err}
    (he : (Prim.observe r [(x, z)] [] m.rowDivide).1 = .error e) (g : Rng) :
    ask (cgpmI (n + 1)) (.observe r o []) ((.flexMix m : Node (Cgpm n)), g) =
      (.error e, ((.flexMix m : Node (Cgpm n)), g)) := by
  have hi : (flexMixSem (cgpmI n) (cgpmSem n)).Inv m := built_inv h
  have hd := RowMix.observe_rejected (AI := flexArrayI (cgpmI n)) hx hr ho
    (Prim.observe_error hi.1.1 he) g
  have : (cgpmI (n + 1)).observe r o [] ((.flexMix m : Node (Cgpm n)), g) =
      (.error e, ((.flexMix m : Node (Cgpm n)), g)) := by
    change Py.inside _ (RowMix.observe (flexArrayI (cgpmI n)) r o []) (m, g) = _
    unfold Py.inside
    rw [hd]
  exact ask_observe_error this

/-- A cluster that the CRP rejects: table 3 when all tables are empty. -/
example : Built 1 (.flexMix Concrete.small : Node Prim) ∧ Concrete.small.rowDivide.outputs = [5] ∧
    Dict.get? Concrete.small.rowidToComponent (some 1) = none ∧
    (Prim.observe (some 1) [(5, .num 3)] [] Concrete.small.rowDivide).1 = .error .assertionError :=
  ⟨Concrete.small_built, rfl, rfl, rfl⟩

/-! ### C32 -/

/-- The property that fails: `logpdf` and `simulate` of a finite mixture take no notice of the inputs
of its components. -/
theorem C32_finite_violated {m : FinMix (Cgpm n)} (h : Built (n + 1) (.finMix m : Node (Cgpm n)))
    {i : Dict Var Val} (ho : ∀ k ∈ Dict.keys i, k ∉ (cgpmI (n + 1)).outputs (.finMix m : Node (Cgpm n)))
    (hz : ∀ k ∈ Dict.keys i, k ∉ m.rowDivide.inputs) (r : RowId) (cs : Dict Var Val) (g : Rng) :
    (∀ t, ask (cgpmI (n + 1)) (.logpdf r t cs i) ((.finMix m : Node (Cgpm n)), g) =
      ask (cgpmI (n + 1)) (.logpdf r t cs []) ((.finMix m : Node (Cgpm n)), g)) ∧
    ∀ t N, ask (cgpmI (n + 1)) (.simulate r t cs i N) ((.finMix m : Node (Cgpm n)), g) =
      ask (cgpmI (n + 1)) (.simulate r t cs [] N) ((.finMix m : Node (Cgpm n)), g) := by
  have hi : (finMixSem (cgpmSem n)).Inv m := built_inv h
  have hx : ∀ k ∈ Dict.keys i, k ∉ m.outputsX (finArrayI (cgpmI n)) := fun k hk hk' =>
    ho k hk (List.mem_append_right _ hk')
  have hE : RowMix.Same (finArraySem (cgpmSem n)) m m m :=
    ⟨rfl, primLaws.refl _ hi.1, (finArrayLaws (cgpmLaws n)).refl _ hi.2.1, rfl⟩
  have key : ∀ {α : Type} {f f' : Py (RowMix _ × Rng) α},
      Py.Rel (RowMix.Same (finArraySem (cgpmSem n)) m) f f' → f (m, g) = f' (m, g) := by
    intro α f f' hf
    obtain ⟨h1, ⟨h2, -⟩, h3⟩ := hf m m g hE
    exact Prod.ext h1 (Prod.ext h2 h3)
  constructor
  · intro t
    have := key (RowMix.same_logpdf (finArrayLaws (cgpmLaws n)) hx hz r t cs)
    have hl : (cgpmI (n + 1)).logpdf r t cs i ((.finMix m : Node (Cgpm n)), g) =
        (cgpmI (n + 1)).logpdf r t cs [] ((.finMix m : Node (Cgpm n)), g) := by
      change Py.inside _ (RowMix.logpdf _ r t cs i) (m, g) = Py.inside _ (RowMix.logpdf _ r t cs []) (m, g)
      unfold Py.inside
      rw [this]
    exact ask_logpdf_congr hl
  · intro t N
    have := key (RowMix.same_simulate (finArrayLaws (cgpmLaws n)) hx hz r t cs N)
    have hl : (cgpmI (n + 1)).simulate r t cs i N ((.finMix m : Node (Cgpm n)), g) =
        (cgpmI (n + 1)).simulate r t cs [] N ((.finMix m : Node (Cgpm n)), g) := by
      change Py.inside _ (RowMix.simulate _ r t cs i N) (m, g) = Py.inside _ (RowMix.simulate _ r t cs [] N) (m, g)
      unfold Py.inside
      rw [this]
    exact ask_simulate_congr hl

/-- The same for flexible mixtures. -/
theorem C32_flexible_violated {m : FlexMix (Cgpm n)} (h : Built (n + 1) (.flexMix m : Node (Cgpm n)))
    {i : Dict Var Val} (ho : ∀ k ∈ Dict.keys i, k ∉ (cgpmI (n + 1)).outputs (.flexMix m : Node (Cgpm n)))
    (hz : ∀ k ∈ Dict.keys i, k ∉ m.rowDivide.inputs) (r : RowId) (cs : Dict Var Val) (g : Rng) :
    (∀ t, ask (cgpmI (n + 1)) (.logpdf r t cs i) ((.flexMix m : Node (Cgpm n)), g) =
      ask (cgpmI (n + 1)) (.logpdf r t cs []) ((.flexMix m : Node (Cgpm n)), g)) ∧
    ∀ t N, ask (cgpmI (n + 1)) (.simulate r t cs i N) ((.flexMix m : Node (Cgpm n)), g) =
      ask (cgpmI (n + 1)) (.simulate r t cs [] N) ((.flexMix m : Node (Cgpm n)), g) := by
  have hi : (flexMixSem (cgpmI n) (cgpmSem n)).Inv m := built_inv h
  have hx : ∀ k ∈ Dict.keys i, k ∉ m.outputsX (flexArrayI (cgpmI n)) := fun k hk hk' =>
    ho k hk (List.mem_append_right _ hk')
  have hE : RowMix.Same (flexArraySem (cgpmI n) (cgpmSem n)) m m m :=
    ⟨rfl, primLaws.refl _ hi.1, (flexArrayLaws (cgpmLaws n)).refl _ hi.2.1, rfl⟩
  have key : ∀ {α : Type} {f f' : Py (RowMix _ × Rng) α},
      Py.Rel (RowMix.Same (flexArraySem (cgpmI n) (cgpmSem n)) m) f f' → f (m, g) = f' (m, g) := by
    intro α f f' hf
    obtain ⟨h1, ⟨h2, -⟩, h3⟩ := hf m m g hE
    exact Prod.ext h1 (Prod.ext h2 h3)
  constructor
  · intro t
    have := key (RowMix.same_logpdf (flexArrayLaws (cgpmLaws n)) hx hz r t cs)
    have hl : (cgpmI (n + 1)).logpdf r t cs i ((.flexMix m : Node (Cgpm n)), g) =
        (cgpmI (n + 1)).logpdf r t cs [] ((.flexMix m : Node (Cgpm n)), g) := by
      change Py.inside _ (RowMix.logpdf _ r t cs i) (m, g) = Py.inside _ (RowMix.logpdf _ r t cs []) (m, g)
      unfold Py.inside
      rw [this]
    exact ask_logpdf_congr hl
  · intro t N
    have := key (RowMix.same_simulate (flexArrayLaws (cgpmLaws n)) hx hz r t cs N)
    have hl : (cgpmI (n + 1)).simulate r t cs i N ((.flexMix m : Node (Cgpm n)), g) =
        (cgpmI (n + 1)).simulate r t cs [] N ((.flexMix m : Node (Cgpm n)), g) := by
      change Py.inside _ (RowMix.simulate _ r t cs i N) (m, g) = Py.inside _ (RowMix.simulate _ r t cs [] N) (m, g)
      unfold Py.inside
      rw [this]
    exact ask_simulate_congr hl

/-- A mixture whose components need the input 8: it names neither an output nor an input of the
divider.  A component given the input answers; the mixture, given it, raises. -/
example (g : Rng) : Built 2 (.finMix Concrete.inputMix : Node (Node Prim)) ∧
    8 ∈ (cgpmI 2).inputs (.finMix Concrete.inputMix : Node (Node Prim)) ∧
    8 ∉ (cgpmI 2).outputs (.finMix Concrete.inputMix : Node (Node Prim)) ∧
    8 ∉ Concrete.inputMix.rowDivide.inputs ∧
    ((cgpmI 1).logpdf none [(1, .nan)] [] [(8, .num 0)] ((.finArray Concrete.arr : Node Prim), g)).1 =
      .ok (.fin 0) ∧
    ((cgpmI 2).logpdf none [(1, .nan)] [(5, .num 0)] [(8, .num 0)]
      ((.finMix Concrete.inputMix : Node (Node Prim)), g)).1 = .error .keyError := by
  refine ⟨Concrete.inputMix_built, ?_, ?_, ?_, ?_, ?_⟩
  · change 8 ∈ [8]; simp
  · change 8 ∉ [5, 1]; simp
  · change 8 ∉ []; simp
  · rfl
  · rfl

/-- What is left of the property: `observe` does hand the components their inputs.  For a new row
put into cluster `j`, the component after the call is what its own `observe` of its part of the
observation and of the inputs makes of it. -/
theorem C32_observe_partial {m : FinMix (Cgpm n)} {x : Var} (hx : m.rowDivide.outputs = [x])
    (hi : m.array.indexer = x) {r : RowId} (hr : Dict.get? m.rowidToComponent r = none) {o i : Dict Var Val} {j : Nat} {b : Cgpm n}
    (ho : Dict.get? o x = some (.num (j : ℚ))) (hb : m.array.cgpms[j]? = some b)
    (hxi : x ∉ (cgpmI (n + 1)).inputs (.finMix m : Node (Cgpm n))) (hn : (Dict.keys i).Nodup) {g g' : Rng} {c' : Cgpm (n + 1)}
    (h : (cgpmI (n + 1)).observe r o i ((.finMix m : Node (Cgpm n)), g) = (.ok (), (c', g'))) :
    ∃ b' b₀, IsComponent c' (.num (j : ℚ)) b' ∧ m.array.cgpms[0]? = some b₀ ∧
      (cgpmI n).observe r (only ((cgpmI n).outputs b₀) o) (only ((cgpmI n).inputs b₀) i) (b, g) =
        (.ok (), (b', g')) := by
  have hix : m.indexer = x := by rw [RowMix.indexer, hx]; rfl
  rcases hd : Prim.observe r [(x, .num (j : ℚ))] (getIntersection m.inputsZ i) m.rowDivide with ⟨e | u, d'⟩
  all_goals
    have h : Py.inside _ (RowMix.observe (finArrayI (cgpmI n)) r o i) (m, g) = _ := h
    unfold Py.inside RowMix.observe at h
    rw [Py.get_bind] at h
    dsimp only at h
    rw [hr] at h
    dsimp only at h
    rw [hix, ho] at h
    dsimp only at h
    rw [Py.pure_bind', Py.bind_apply, onDivide_eq, hd] at h
  · cases h
  · dsimp only at h
    have hg : Dict.getItem [(x, Val.num (j : ℚ))] x = .ok (.num (j : ℚ)) := by
      simp [Dict.getItem, Dict.get?]
    have hpop : popItem (merged (getIntersection (m.inputsX (finArrayI (cgpmI n))) i) [(x, .num (j : ℚ))]) x =
        .ok (.num (j : ℚ), getIntersection (m.inputsX (finArrayI (cgpmI n))) i) := by
      apply popItem_merged
      · rw [getIntersection, Dict.keys]; exact hn.sublist (List.filter_sublist.map _)
      · intro hm
        obtain ⟨kv, hkv, rfl⟩ := List.mem_map.1 hm
        have := (List.mem_filter.1 hkv).2
        exact hxi (List.mem_append_right _ (by simpa using this))
    have hidx : pyIndex m.array.cgpms.length (.num (j : ℚ)) = .ok j :=
      pyIndex_nat (natIndex_nat j) (List.getElem?_eq_some_iff.1 hb).1
    rw [Py.lift_bind, hg] at h
    dsimp only at h
    rw [Py.modify_bind] at h
    dsimp only at h
    rw [Py.pure_bind', onArray_eq] at h
    have harr : ∀ o' i', (finArrayI (cgpmI n)).observe r o' i' (m.array, g) =
        FinArray.observe (cgpmI n) r o' i' (m.array, g) := fun _ _ => rfl
    rw [harr] at h
    obtain ⟨b₀, hb₀⟩ : ∃ b₀, m.array.cgpms[0]? = some b₀ := by
      rcases hl : m.array.cgpms with _ | ⟨b₀, l⟩
      · rw [hl] at hb; simp at hb
      · exact ⟨b₀, rfl⟩
    have ho' : m.outputsX (finArrayI (cgpmI n)) = (cgpmI n).outputs b₀ := by
      change FinArray.outputs (cgpmI n) m.array = _
      unfold FinArray.outputs
      rcases hl : m.array.cgpms with _ | ⟨b₁, l⟩
      · rw [hl] at hb; simp at hb
      · rw [hl] at hb₀; cases hb₀; rfl
    have hi' : m.inputsX (finArrayI (cgpmI n)) = (cgpmI n).inputs b₀ := by
      change (FinArray.inputs (cgpmI n) m.array).tail = _
      unfold FinArray.inputs
      rcases hl : m.array.cgpms with _ | ⟨b₁, l⟩
      · rw [hl] at hb; simp at hb
      · rw [hl] at hb₀; cases hb₀; rfl
    rw [FinArray.observe_at (cgpmI n) (by rw [hi]; exact hpop) hidx hb g] at h
    rw [ho', hi'] at h
    have hgi : ∀ l (d : Dict Var Val), getIntersection l d = only l d := fun _ _ => rfl
    rw [hgi, hgi] at h
    rcases hc : (cgpmI n).observe r (only ((cgpmI n).outputs b₀) o) (only ((cgpmI n).inputs b₀) i) (b, g)
      with ⟨e | u', b', g''⟩ <;> rw [hc] at h
    · cases h
    · dsimp only at h
      obtain ⟨-, rfl, rfl⟩ := h
      refine ⟨b', b₀, ⟨j, rfl, ?_⟩, hb₀, hc⟩
      have hj := (List.getElem?_eq_some_iff.1 hb).1
      simp [hj]

/-- A row of the mixture of arrays, put into cluster 1 with the input 8. -/
example (g : Rng) : ∃ c', (cgpmI 2).observe (some 3) [(5, .num 1), (1, .num 2)] [(8, .num 0)]
    ((.finMix Concrete.inputMix : Node (Node Prim)), g) = (.ok (), (c', g)) := by
  exact ⟨.finMix ⟨.bernoulli { Bernoulli.init [5] [] [] [] with
      data := [(some 3, .num 1)], N := 1, xSum := 1 },
    ⟨[.finArray Concrete.arr, .finArray { Concrete.arr with
        cgpms := [.categorical { Categorical.init [1] [] [] [] 3 with
          data := [(some 3, .num 2)], N := 1, counts := [0, 0, 1] },
          .categorical (Categorical.init [1] [] [] [] 3)]
        rowidToIndex := [(some 3, .num 0)] }], 5, [(some 3, .num 1)]⟩, [(some 3, .num 1)]⟩, rfl⟩

/-! ### C33 -/

/-- The property that fails: no finite mixture can compute its score. -/
theorem C33_violated {m : FinMix (Cgpm n)} (h : Built (n + 1) (.finMix m : Node (Cgpm n))) :
    (cgpmI (n + 1)).logpdfScore (.finMix m : Node (Cgpm n)) = .error .typeError := by
  have hi : (finMixSem (cgpmSem n)).Inv m := built_inv h
  change RowMix.logpdfScore (finArrayI (cgpmI n)) m = _
  unfold RowMix.logpdfScore
  rw [Prim.logpdfScore_eq hi.1.1 hi.1.2]
  obtain ⟨d, ⟨l, x, w⟩, rc⟩ := m
  cases l with
  | nil => exact absurd rfl hi.2.1.2.1
  | cons c l => rfl

example : Built 2 (.finMix Concrete.inputMix : Node (Node Prim)) := Concrete.inputMix_built

/-- What is left: a flexible mixture's score is the divider's score plus those of the components. -/
theorem C33_partial {m : FlexMix (Cgpm n)} (h : Built (n + 1) (.flexMix m : Node (Cgpm n))) :
    ∃ (z : ℝ) (score : Cgpm n → ℝ), m.rowDivide.logpdfScore = .ok (.fin z) ∧
      (∀ kc ∈ m.array.cgpms, (cgpmI n).logpdfScore kc.2 = .ok (.fin (score kc.2))) ∧
      (cgpmI (n + 1)).logpdfScore (.flexMix m : Node (Cgpm n)) =
        .ok (.fin (z + (m.array.cgpms.map fun kc => score kc.2).sum)) := by
  have hi : (flexMixSem (cgpmI n) (cgpmSem n)).Inv m := built_inv h
  have hs : ∀ c ∈ Dict.values m.array.cgpms, Scored (cgpmI n) c := fun c hc =>
    (FlexArray.Inv.mem hi.2.1 hc).2
  let score : Cgpm n → ℝ := fun c => match FlexArray.sc (cgpmI n) c with
    | .fin x => x
    | _ => 0
  have hsc : ∀ c ∈ Dict.values m.array.cgpms, FlexArray.sc (cgpmI n) c = .fin (score c) := by
    intro c hc
    obtain ⟨x, hx⟩ := hs c hc
    have : FlexArray.sc (cgpmI n) c = .fin x := by rw [FlexArray.sc, hx]
    simp only [score, this]
  refine ⟨_, score, Prim.logpdfScore_eq hi.1.1 hi.1.2, ?_, ?_⟩
  · intro kc hkc
    have hm : kc.2 ∈ Dict.values m.array.cgpms := List.mem_map.2 ⟨kc, hkc, rfl⟩
    rw [FlexArray.sc_ok (hs _ hm), hsc _ hm]
  · change RowMix.logpdfScore (flexArrayI (cgpmI n)) m = _
    have h1 : (Dict.values m.array.cgpms).mapM (cgpmI n).logpdfScore =
        .ok ((Dict.values m.array.cgpms).map fun c => Fl.fin (score c)) := by
      apply mapM_ok
      intro c hc
      rw [FlexArray.sc_ok (hs c hc), hsc c hc]
    have h2 : (flexArrayI (cgpmI n)).logpdfScore m.array =
        .ok (.fin (m.array.cgpms.map fun kc => score kc.2).sum) := by
      change FlexArray.logpdfScore (cgpmI n) m.array = _
      rw [FlexArray.logpdfScore, h1]
      simp only [bind, Except.bind, pure, Except.pure, Except.ok.injEq]
      rw [Fl.sum_eq, Dict.values, List.map_map]
      induction m.array.cgpms with
      | nil => rfl
      | cons a l ih => simp only [List.map_cons, List.sum_cons, ih]; rfl
    unfold RowMix.logpdfScore
    rw [Prim.logpdfScore_eq hi.1.1 hi.1.2, h2]
    rfl

example : Built 1 (.flexMix Concrete.small' : Node Prim) := Concrete.small'_built

/-! ### C68 -/

/-- The property that fails: a finite mixture divided by a CRP cannot be rebuilt from its metadata
once it holds a row. -/
theorem C68_violated : ∃ (d : Prim) (b : Prim) (m m' : FinMix Prim) (o : Dict Var Val),
    LegallyReachable d ∧ LegallyReachable b ∧ FinMix.init d [b] = .ok m ∧
    (∀ g : Rng, (finMixI primI).observe (some 0) o [] (m, g) = (.ok (), (m', g))) ∧
    (finMixI primI).fromMetadata ((finMixI primI).toMetadata m') = .error .assertionError := by
  refine ⟨.crp (Crp.init [5] [] [] []), .categorical (Categorical.init [1] [] [] [] 3), Concrete.single,
    ⟨.crp { Crp.init [5] [] [] [] with data := [(some 0, 0)], N := 1, counts := [(0, 1)] },
      ⟨[.categorical { Categorical.init [1] [] [] [] 3 with data := [(some 0, .num 2)], N := 1, counts := [0, 0, 1] }], 5, [(some 0, .num 0)]⟩,
      [(some 0, .num 0)]⟩, [(5, .num 0), (1, .num 2)], Concrete.crp0_legally, Concrete.cat0_legally,
    rfl, fun g => rfl, rfl⟩

/-- What is left: a finite mixture divided by a Categorical or a Bernoulli can be rebuilt at any
time. -/
theorem C68_partial {m : FinMix (Cgpm n)} (h : Built (n + 1) (.finMix m : Node (Cgpm n))) :
    ∃ c', (cgpmI (n + 1)).fromMetadata ((cgpmI (n + 1)).toMetadata (.finMix m : Node (Cgpm n))) = .ok c' :=
  ⟨_, C20_round_trip h⟩

example : Built 2 (.finMix Concrete.inputMix : Node (Node Prim)) := Concrete.inputMix_built

end Props
end Cgpm2
