import Verif.Lemmas.Ensemble
import Verif.Lemmas.MoveRow
import Verif.Lemmas.ConcretePane
import Verif.Lemmas.ConcreteCrosscat

/-!
# Properties C53, C54, C55, C76: ensembles of chains

The theorems on calls hold for chains of every class with the interface of a CGPM.
-/

namespace Cgpm2.Props
open Spec Concrete Ensemble

/-! ## C53 Bulk calls -/

/-- C53: when the arguments that are given have the same length `N`, there are `N` argument tuples;
the i-th has the i-th entry of every given argument and None for every absent one. -/
theorem C53_args (args : List (Option (List Arg))) (N : Nat) (hex : ∃ l, some l ∈ args)
    (h : ∀ l, some l ∈ args → l.length = N) :
    ∃ rows, makeArgsList args = .ok rows ∧ rows.length = N ∧
      ∀ i < N, ∃ row, rows[i]? = some row ∧ row.length = args.length ∧
        (∀ j : Nat, args[j]? = some none → row[j]? = some .none) ∧
        ∀ (j : Nat) l, args[j]? = some (some l) → row[j]? = l[i]? := by
  have hne : args.map (fun a => a.getD (List.replicate N Arg.none)) ≠ [] := by
    obtain ⟨l, hl⟩ := hex
    intro h0
    rw [List.map_eq_nil_iff] at h0
    rw [h0] at hl
    cases hl
  obtain ⟨h1, h2⟩ := zipStar_spec _ hne N (by
    intro l hl
    obtain ⟨a, ha, rfl⟩ := List.mem_map.1 hl
    cases a with
    | none => simp
    | some l => exact h l ha)
  refine ⟨_, makeArgsList_ok args N hex h, h1, fun i hi => ?_⟩
  obtain ⟨row, h3, h4, h5⟩ := h2 i hi
  refine ⟨row, h3, by rw [h4, List.length_map], fun j hj => ?_, fun j l hj => ?_⟩
  · rw [h5 j (List.replicate N .none) (by rw [List.getElem?_map, hj]; rfl)]
    simp [hi]
  · exact h5 j l (by rw [List.getElem?_map, hj]; rfl)

/-- C53: unequal lengths are rejected. -/
theorem C53_unequal (args : List (Option (List Arg))) (l l' : List Arg) (h : some l ∈ args)
    (h' : some l' ∈ args) (hl : l.length ≠ l'.length) :
    makeArgsList args = .error .assertionError := by
  have hm : ∀ k, some k ∈ args → k.length ∈ args.filterMap (fun a => a.map List.length) :=
    fun k hk => List.mem_filterMap.2 ⟨some k, hk, rfl⟩
  unfold makeArgsList
  rcases hNs : args.filterMap (fun a => a.map List.length) with _ | ⟨n, ns⟩
  · have := hm l h
    rw [hNs] at this
    cases this
  · simp only [hNs]
    rw [if_pos]
    intro hall
    have h1 := hm l h
    have h2 := hm l' h'
    rw [hNs] at h1 h2
    exact hl ((hall _ h1).trans (hall _ h2).symm)

/-- C53: when every argument is None the call raises. -/
theorem C53_all_absent (args : List (Option (List Arg))) (h : ∀ a ∈ args, a = none) :
    makeArgsList args = .error .indexError := by
  have : args.filterMap (fun a => a.map List.length) = [] := by
    rw [List.filterMap_eq_nil_iff]
    intro a ha
    rw [h a ha]
    rfl
  unfold makeArgsList
  simp only [this]

example : makeArgsList [some [.row 3, .row 4], none, some [.count 1, .count 2]] =
    .ok [[.row 3, .none, .count 1], [.row 4, .none, .count 2]] := rfl
example : makeArgsList [some [.row 3, .row 4], some [.count 1]] = .error .assertionError := rfl

variable {S : Type} (I : Iface S)

theorem rowArg_ofRow (r : RowId) : rowArg (ofRow r) = .ok r := by cases r <;> rfl

theorem callObserve_eq (r : RowId) (o i : Dict Var Val) :
    callObserve I [ofRow r, .dict o, .dict i] = I.observe r o i := by cases r <;> rfl
theorem callObserve_none (r : RowId) (o : Dict Var Val) :
    callObserve I [ofRow r, .dict o, .none] = I.observe r o [] := by cases r <;> rfl
theorem callUnobserve_eq (r : RowId) : callUnobserve I [ofRow r] = I.unobserve r := by
  cases r <;> rfl
theorem callLogpdf_eq (r : RowId) (t : Dict Var Val) (c i : Option (Dict Var Val)) :
    callLogpdf I [ofRow r, .dict t, (c.map .dict).getD .none, (i.map .dict).getD .none] =
      I.logpdf r t (c.getD []) (i.getD []) := by cases r <;> cases c <;> cases i <;> rfl
theorem callSimulate_eq (r : RowId) (t : List Var) (c i : Option (Dict Var Val)) (N : Option Nat) :
    callSimulate I [ofRow r, .vars t, (c.map .dict).getD .none, (i.map .dict).getD .none,
      (N.map .count).getD .none] = I.simulate r t (c.getD []) (i.getD []) N := by
  cases r <;> cases c <;> cases i <;> cases N <;> rfl

/-- C53 and C54: `observe_bulk` of a list of rows succeeds exactly when on every chain the single
calls, made one after the other, all succeed; every chain is then in the state these lead to. -/
theorem C53_observe_bulk (calls : List (RowId × Dict Var Val × Dict Var Val)) (multiprocess : Bool)
    (cs cs' : List (S × Rng)) :
    Ensemble.observeBulk I (calls.map (·.1)) (calls.map (·.2.1)) (some (calls.map (·.2.2)))
        multiprocess cs = (.ok (), cs') ↔
      List.Forall₂ (fun c c' => ∃ rs,
        oneByOne (fun k : _ × _ × _ => I.observe k.1 k.2.1 k.2.2) calls c = (.ok rs, c')) cs cs' := by
  have hm := makeArgsList_map (A := RowId × Dict Var Val × Dict Var Val)
    [fun k => ofRow k.1, fun k => .dict k.2.1, fun k => .dict k.2.2] (by simp) calls
  unfold Ensemble.observeBulk
  simp only [List.map_cons, List.map_nil] at hm
  simp only [List.map_map, Option.map_some, Function.comp_def]
  rw [replace_ok _ (modifyBulk_self _ _ hm)]
  apply iff_of_eq
  congr 1
  funext c c'
  rw [modifyBulk_eq _ _ hm, oneByOne_map]
  simp only [callObserve_eq]
  rcases h : oneByOne (fun k : RowId × Dict Var Val × Dict Var Val => I.observe k.1 k.2.1 k.2.2) calls
    c with ⟨_ | _, c''⟩ <;> simp

/-- C53 and C54: without inputs, `observe_bulk` stands for single calls without inputs. -/
theorem C53_observe_bulk_no_inputs (calls : List (RowId × Dict Var Val)) (multiprocess : Bool)
    (cs cs' : List (S × Rng)) :
    Ensemble.observeBulk I (calls.map (·.1)) (calls.map (·.2)) none multiprocess cs = (.ok (), cs') ↔
      List.Forall₂ (fun c c' => ∃ rs,
        oneByOne (fun k : _ × _ => I.observe k.1 k.2 []) calls c = (.ok rs, c')) cs cs' := by
  have hm : makeArgsList [some (calls.map fun k => ofRow k.1), some (calls.map fun k => Arg.dict k.2),
      none] = .ok (calls.map fun k => [ofRow k.1, .dict k.2, .none]) := by
    have := makeArgsList_map (A := RowId × Dict Var Val)
      [fun k => ofRow k.1, fun k => .dict k.2, fun _ => .none] (by simp) calls
    simp only [List.map_cons, List.map_nil] at this
    rw [makeArgsList_ok _ calls.length ⟨calls.map fun k => ofRow k.1, by simp⟩ (by simp)] at this ⊢
    simpa using this
  unfold Ensemble.observeBulk
  simp only [List.map_map, Option.map_none, Function.comp_def]
  rw [replace_ok _ (modifyBulk_self _ _ hm)]
  apply iff_of_eq
  congr 1
  funext c c'
  rw [modifyBulk_eq _ _ hm, oneByOne_map]
  simp only [callObserve_none]
  rcases h : oneByOne (fun k : RowId × Dict Var Val => I.observe k.1 k.2 []) calls
    c with ⟨_ | _, c''⟩ <;> simp

/-- C53 and C54: the same for `unobserve_bulk`. -/
theorem C53_unobserve_bulk (rows : List RowId) (multiprocess : Bool) (cs cs' : List (S × Rng)) :
    Ensemble.unobserveBulk I rows multiprocess cs = (.ok (), cs') ↔
      List.Forall₂ (fun c c' => ∃ rs, oneByOne I.unobserve rows c = (.ok rs, c')) cs cs' := by
  have hm := makeArgsList_map (A := RowId) [fun k => ofRow k] (by simp) rows
  simp only [List.map_cons, List.map_nil] at hm
  unfold Ensemble.unobserveBulk
  rw [replace_ok _ (modifyBulk_self _ _ hm)]
  apply iff_of_eq
  congr 1
  funext c c'
  rw [modifyBulk_eq _ _ hm, oneByOne_map]
  simp only [callUnobserve_eq]
  rcases h : oneByOne I.unobserve rows c with ⟨_ | _, c''⟩ <;> simp

/-- C53 and C54: `logpdf_bulk` returns for every chain the list of the results of the single
calls. -/
theorem C53_logpdf_bulk (calls : List (RowId × Dict Var Val × Dict Var Val × Dict Var Val))
    (multiprocess : Bool) (cs : List (S × Rng)) (out : List (List Fl)) :
    (Ensemble.logpdfBulk I (calls.map (·.1)) (calls.map (·.2.1)) (some (calls.map (·.2.2.1)))
        (some (calls.map (·.2.2.2))) multiprocess cs).1 = .ok out ↔
      List.Forall₂ (fun c o => (oneByOne
        (fun k : _ × _ × _ × _ => I.logpdf k.1 k.2.1 k.2.2.1 k.2.2.2) calls c).1 = .ok o) cs out := by
  have hm := makeArgsList_map (A := RowId × Dict Var Val × Dict Var Val × Dict Var Val)
    [fun k => ofRow k.1, fun k => .dict k.2.1, fun k => .dict k.2.2.1, fun k => .dict k.2.2.2]
    (by simp) calls
  simp only [List.map_cons, List.map_nil] at hm
  have e : ∀ c, evaluateBulk (callLogpdf I) [some (calls.map fun k => ofRow k.1),
      some (calls.map fun k => Arg.dict k.2.1), some (calls.map fun k => Arg.dict k.2.2.1),
      some (calls.map fun k => Arg.dict k.2.2.2)] c =
      oneByOne (fun k : RowId × Dict Var Val × Dict Var Val × Dict Var Val =>
        I.logpdf k.1 k.2.1 k.2.2.1 k.2.2.2) calls c := by
    intro c
    rw [evaluateBulk_eq _ _ hm, oneByOne_map]
    have : (fun a : RowId × Dict Var Val × Dict Var Val × Dict Var Val =>
        callLogpdf I [ofRow a.1, .dict a.2.1, .dict a.2.2.1, .dict a.2.2.2]) =
        fun k => I.logpdf k.1 k.2.1 k.2.2.1 k.2.2.2 :=
      funext fun a => callLogpdf_eq I a.1 a.2.1 (some a.2.2.1) (some a.2.2.2)
    rw [this]
  unfold Ensemble.logpdfBulk
  simp only [List.map_map, Option.map_some, Function.comp_def]
  simp only [← e]
  set job := evaluateBulk (callLogpdf I) [some (calls.map fun k => ofRow k.1),
      some (calls.map fun k => Arg.dict k.2.1), some (calls.map fun k => Arg.dict k.2.2.1),
      some (calls.map fun k => Arg.dict k.2.2.2)]
  constructor
  · intro h
    exact ((toAll_ok multiprocess job cs _ out).1 (Prod.ext h rfl)).1
  · intro h
    rw [(toAll_ok multiprocess job cs _ out).2 ⟨h, rfl⟩]

/-! ## C54 Chains do not interact -/

/-- C54: `observe` succeeds exactly when it succeeds on every chain, and takes every chain to the
state its own `observe` leads to. -/
theorem C54_observe (r : RowId) (o : Dict Var Val) (i : Option (Dict Var Val)) (multiprocess : Bool)
    (cs cs' : List (S × Rng)) :
    Ensemble.observe I r o i multiprocess cs = (.ok (), cs') ↔
      List.Forall₂ (fun c c' => I.observe r o (i.getD []) c = (.ok (), c')) cs cs' := by
  unfold Ensemble.observe
  rw [replace_ok _ (modify_self _ _)]
  apply iff_of_eq
  congr 1
  funext c c'
  rw [modify_eq]
  have : callObserve I [ofRow r, .dict o, (i.map .dict).getD .none] = I.observe r o (i.getD []) := by
    cases i
    · exact callObserve_none I r o
    · exact callObserve_eq I r o _
  rw [this]
  rcases h : I.observe r o (i.getD []) c with ⟨_ | _, c''⟩ <;> simp

/-- C54: the same for `unobserve`. -/
theorem C54_unobserve (r : RowId) (multiprocess : Bool) (cs cs' : List (S × Rng)) :
    Ensemble.unobserve I r multiprocess cs = (.ok (), cs') ↔
      List.Forall₂ (fun c c' => ∃ a, I.unobserve r c = (.ok a, c')) cs cs' := by
  unfold Ensemble.unobserve
  rw [replace_ok _ (modify_self _ _)]
  apply iff_of_eq
  congr 1
  funext c c'
  rw [modify_eq, callUnobserve_eq]
  rcases h : I.unobserve r c with ⟨_ | _, c''⟩ <;> simp

/-- C54: `transition` takes every chain to what the program makes of it. -/
theorem C54_transition (program : S × Rng → Except Err (S × Rng)) (multiprocess : Bool)
    (cs cs' : List (S × Rng)) :
    Ensemble.transition program multiprocess cs = (.ok (), cs') ↔
      List.Forall₂ (fun c c' => program c = .ok c') cs cs' := by
  have e : ∀ c, alter [program] c = match program c with
      | .ok c' => (.ok c', c')
      | .error e => (.error e, c) := by
    intro c
    unfold alter
    rw [List.foldlM_cons]
    rcases program c with e | c' <;> rfl
  unfold Ensemble.transition
  rw [replace_ok]
  · apply iff_of_eq
    congr 1
    funext c c'
    rw [e]
    rcases program c with e | c'' <;> simp
  · intro c c' h
    rw [e] at h ⊢
    rcases h' : program c with e | c''
    · rw [h'] at h; cases h
    · rw [h'] at h; cases h; rfl

/-- C54: `logpdf_score` returns the scores of the chains, in their order. -/
theorem C54_logpdf_score (multiprocess : Bool) (cs : List (S × Rng)) (out : List Fl) :
    (Ensemble.logpdfScore I multiprocess cs).1 = .ok out ↔
      List.Forall₂ (fun c y => I.logpdfScore c.1 = .ok y) cs out := by
  let job : Py (S × Rng) Fl := fun c => (I.logpdfScore c.1, c)
  change (toAll multiprocess job cs).1 = _ ↔ _
  constructor
  · intro h
    exact ((toAll_ok multiprocess job cs _ out).1 (Prod.ext h rfl)).1
  · intro h
    rw [(toAll_ok multiprocess job cs _ out).2 ⟨h, rfl⟩]

/-- C54: `logpdf` returns the answers of the chains, in their order. -/
theorem C54_logpdf (r : RowId) (t : Dict Var Val) (k i : Option (Dict Var Val)) (multiprocess : Bool)
    (cs : List (S × Rng)) (out : List Fl) :
    (Ensemble.logpdf I r t k i multiprocess cs).1 = .ok out ↔
      List.Forall₂ (fun c y => (I.logpdf r t (k.getD []) (i.getD []) c).1 = .ok y) cs out := by
  unfold Ensemble.logpdf evaluate
  rw [callLogpdf_eq]
  constructor
  · intro h
    exact ((toAll_ok multiprocess _ cs _ out).1 (Prod.ext h rfl)).1
  · intro h
    rw [(toAll_ok multiprocess _ cs _ out).2 ⟨h, rfl⟩]

/-- C54: `simulate` returns the samples of the chains, in their order. -/
theorem C54_simulate (r : RowId) (t : List Var) (k i : Option (Dict Var Val)) (N : Option Nat)
    (multiprocess : Bool) (cs : List (S × Rng)) (out : List SimOut) :
    (Ensemble.simulate I r t k i N multiprocess cs).1 = .ok out ↔
      List.Forall₂ (fun c y => (I.simulate r t (k.getD []) (i.getD []) N c).1 = .ok y) cs out := by
  unfold Ensemble.simulate evaluate
  rw [callSimulate_eq]
  constructor
  · intro h
    exact ((toAll_ok multiprocess _ cs _ out).1 (Prod.ext h rfl)).1
  · intro h
    rw [(toAll_ok multiprocess _ cs _ out).2 ⟨h, rfl⟩]

/-- C54: `logpdf_heterogeneous` asks the i-th chain the i-th query and returns the answers in the
order of the chains. -/
theorem C54_logpdf_heterogeneous (queries : List (Int × Dict Var Val × Dict Var Val × Dict Var Val))
    (multiprocess : Bool) (cs : List (S × Rng)) (hl : queries.length = cs.length) (out : List Fl) :
    (Ensemble.logpdfHeterogeneous I (some (queries.map (·.1))) (some (queries.map (·.2.1)))
        (some (queries.map (·.2.2.1))) (some (queries.map (·.2.2.2))) multiprocess cs).1 = .ok out ↔
      List.Forall₂ (fun qc y => (I.logpdf (some qc.1.1) qc.1.2.1 qc.1.2.2.1 qc.1.2.2.2 qc.2).1 = .ok y)
        (queries.zip cs) out := by
  have hp : ∀ {α : Type} (f : Int × Dict Var Val × Dict Var Val × Dict Var Val → α),
      perChain cs.length (some (queries.map f)) = .ok (queries.map fun q => some (f q)) := by
    intro α f
    simp [perChain, hl]
  have hj : (List.range cs.length).map (fun i =>
      evaluate (callLogpdf I) [ofRow ((queries.map fun q => some q.1).getD i none),
        (((queries.map fun q => some q.2.1).getD i none).map .dict).getD .none,
        (((queries.map fun q => some q.2.2.1).getD i none).map .dict).getD .none,
        (((queries.map fun q => some q.2.2.2).getD i none).map .dict).getD .none]) =
      queries.map fun q => I.logpdf (some q.1) q.2.1 q.2.2.1 q.2.2.2 := by
    refine List.ext_getElem (by simp [hl]) fun i h1 h2 => ?_
    simp only [List.length_map] at h2
    simp only [List.getElem_map, List.getElem_range, List.getD_eq_getElem?_getD, List.getElem?_map,
      List.getElem?_eq_getElem h2, Option.map_some, Option.getD_some]
    exact callLogpdf_eq I _ _ (some _) (some _)
  unfold Ensemble.logpdfHeterogeneous
  simp only [hp, bind, Except.bind, pure, Except.pure]
  rw [hj, mapper_fst, mapM_ok_iff, List.zip_map_left, List.forall₂_map_left_iff]
  rfl

/-- C54: a list that does not have one entry per chain is rejected. -/
theorem C54_heterogeneous_rejects (rowids : List Int) (t k i : Option (List (Dict Var Val)))
    (multiprocess : Bool) (cs : List (S × Rng)) (hl : rowids.length ≠ cs.length) :
    Ensemble.logpdfHeterogeneous I (some rowids) t k i multiprocess cs = (.error .assertionError, cs) := by
  unfold Ensemble.logpdfHeterogeneous
  simp [perChain, hl, bind, Except.bind]

/-- C54: when `observe` raises, the chains after the one that raises are not touched; in other
processes none is. -/
theorem C54_observe_raises (r : RowId) (o : Dict Var Val) (i : Option (Dict Var Val))
    (multiprocess : Bool) (cs cs' : List (S × Rng)) (e : Err)
    (h : Ensemble.observe I r o i multiprocess cs = (.error e, cs')) :
    if multiprocess then cs' = cs else ∃ before c after, cs = before ++ c :: after ∧
      (∀ d ∈ before, (I.observe r o (i.getD []) d).1 = .ok ()) ∧
      (I.observe r o (i.getD []) c).1 = .error e ∧
      cs' = (before ++ [c]).map (fun c => (I.observe r o (i.getD []) c).2) ++ after := by
  have h1 := toAll_error _ _ _ _ _ (replace_error _ _ _ _ _ h)
  cases multiprocess
  · obtain ⟨b, c, a, h2, h3, h4, h5⟩ := h1
    have hc : callObserve I [ofRow r, .dict o, (i.map .dict).getD .none] = I.observe r o (i.getD []) := by
      cases i
      · exact callObserve_none I r o
      · exact callObserve_eq I r o _
    have e2 : ∀ c, (modify (callObserve I) [ofRow r, .dict o, (i.map .dict).getD .none] c).2 =
        (I.observe r o (i.getD []) c).2 := by
      intro c
      rw [modify_eq, hc]
      rcases I.observe r o (i.getD []) c with ⟨_ | _, c''⟩ <;> rfl
    refine ⟨b, c, a, h2, fun d hd => ?_, ?_, ?_⟩
    · obtain ⟨x, hx⟩ := h3 d hd
      rw [modify_eq, hc] at hx
      rcases h : I.observe r o (i.getD []) d with ⟨_ | _, c''⟩
      · rw [h] at hx; cases hx
      · rfl
    · rw [modify_eq, hc] at h4
      rcases h : I.observe r o (i.getD []) c with ⟨_ | _, c''⟩
      · rw [h] at h4; simpa using h4
      · rw [h] at h4; cases h4
    · simp only [e2] at h5
      exact h5
  · exact h1

/-- Two chains of the same model with different data: both take in the row, each into its own data. -/
example (mp : Bool) (g g' : Rng) :
    Ensemble.observe (cgpmI 2) (some 2) [(5, .num 0), (1, .num 2)] none mp
      [((.flexMix pane1 : Node (Node Prim)), g), ((.flexMix pane0 : Node (Node Prim)), g')] =
    (.ok (), [((.flexMix pane2 : Node (Node Prim)), g),
      ((cgpmI 2).observe (some 2) [(5, .num 0), (1, .num 2)] [] ((.flexMix pane0 : Node (Node Prim)), g')).2]) := by
  cases mp <;> rfl

/-- The second chain already has row 1 and refuses; in the same process the first has taken it in. -/
example (g g' : Rng) :
    Ensemble.observe (cgpmI 2) (some 1) [(5, .num 1), (1, .num 1)] none false
      [((.flexMix pane0 : Node (Node Prim)), g), ((.flexMix pane1 : Node (Node Prim)), g')] =
    (.error .valueError, [((.flexMix pane1 : Node (Node Prim)), g), ((.flexMix pane1 : Node (Node Prim)), g')]) := rfl

/-! ## C76 Fresh random numbers -/

/-- C76, the part that holds: run in the same process, `simulate` advances the random state of
every chain as the chain's own `simulate` does. -/
theorem C76_partial (r : RowId) (t : List Var) (k i : Option (Dict Var Val)) (N : Option Nat)
    (cs cs' : List (S × Rng)) (out : List SimOut)
    (h : Ensemble.simulate I r t k i N false cs = (.ok out, cs')) :
    cs' = cs.map fun c => (I.simulate r t (k.getD []) (i.getD []) N c).2 := by
  unfold Ensemble.simulate evaluate at h
  rw [callSimulate_eq] at h
  exact ((toAll_ok false _ cs cs' out).1 h).2

/-- C76 is violated: run in other processes, which is the default of the bulk calls, `simulate`
leaves the random states of the chains where they were, so that it answers the same when asked
again. -/
theorem C76_violated (r : RowId) (t : List Var) (k i : Option (Dict Var Val)) (N : Option Nat)
    (cs : List (S × Rng)) :
    (Ensemble.simulate I r t k i N true cs).2 = cs ∧
    (Ensemble.simulate I r t k i N true (Ensemble.simulate I r t k i N true cs).2).1 =
      (Ensemble.simulate I r t k i N true cs).1 := ⟨rfl, rfl⟩

/-- C76 is violated for `simulate_bulk`. -/
theorem C76_bulk_violated (rs : List RowId) (ts : List (List Var))
    (ks is : Option (List (Dict Var Val))) (Ns : Option (List Nat)) (cs : List (S × Rng)) :
    (Ensemble.simulateBulk I rs ts ks is Ns true cs).2 = cs ∧
    (Ensemble.simulateBulk I rs ts ks is Ns true
        (Ensemble.simulateBulk I rs ts ks is Ns true cs).2).1 =
      (Ensemble.simulateBulk I rs ts ks is Ns true cs).1 := ⟨rfl, rfl⟩

/-- In the same process two successive calls give the draws that follow each other; in other
processes they give the same one. -/
example (g : Rng) : let chain : Prim × Rng := (.normal norm0, g)
    let ask mp cs := Ensemble.simulate primI none [3] none none none mp cs
    (ask false [chain]).1 = .ok [.one [(3, .num (g 2).x)]] ∧
    (ask false (ask false [chain]).2).1 = .ok [.one [(3, .num (g 5).x)]] ∧
    (ask true (ask true [chain]).2).1 = .ok [.one [(3, .num (g 2).x)]] :=
  ⟨rfl, rfl, (C54_simulate primI none [3] none none none true [(Prim.normal norm0, g)]
    [.one [(3, .num (g 2).x)]]).2 (.cons rfl .nil)⟩

/-! ## C55 Co-assignment -/

variable {I}

theorem outputToIndex_eq {p : Product S} (hv : (p.cgpms.flatMap I.outputs).Nodup) {o : Var} {c : S}
    (hc : c ∈ p.cgpms) (ho : o ∈ I.outputs c) :
    ∃ i, outputToIndex I p o = .ok i ∧ p.cgpms[i]? = some c := by
  obtain ⟨l1, l2, he⟩ := List.append_of_mem hc
  rw [he, List.flatMap_append, List.flatMap_cons] at hv
  have hd1 : ∀ d ∈ l1, o ∉ I.outputs d := fun d hd hod =>
    (List.nodup_append.1 hv).2.2 o (List.mem_flatMap.2 ⟨d, hd, hod⟩) o (by simp [ho]) rfl
  have hd2 : ∀ d ∈ l2, o ∉ I.outputs d := fun d hd hod =>
    (List.nodup_append.1 (List.nodup_append.1 hv).2.1).2.2 o ho o
      (List.mem_flatMap.2 ⟨d, hd, hod⟩) rfl
  have hf := filter_zipIdx (fun d => o ∈ I.outputs d) hd1 hd2 ho
  refine ⟨l1.length, ?_, by rw [he]; simp⟩
  unfold outputToIndex
  rw [he, hf]
  rfl

theorem index_inj {p : Product S} (hv : (p.cgpms.flatMap I.outputs).Nodup) {o : Var} {i j : Nat}
    {c d : S} (hi : p.cgpms[i]? = some c) (hj : p.cgpms[j]? = some d) (hc : o ∈ I.outputs c)
    (hd : o ∈ I.outputs d) : i = j := by
  rw [List.nodup_flatMap] at hv
  by_contra hne
  obtain ⟨hi', hi⟩ := List.getElem?_eq_some_iff.1 hi
  obtain ⟨hj', hj⟩ := List.getElem?_eq_some_iff.1 hj
  have hp := List.pairwise_iff_getElem.1 hv.2
  rcases Nat.lt_or_gt_of_ne hne with h | h
  · have := hp i j hi' hj' h
    rw [hi, hj] at this
    exact this hc hd
  · have := hp j i hj' hi' h
    rw [hi, hj] at this
    exact this hd hc

theorem sameRow_eq {I : Iface (Node S)} {p : Product (Node S)} {o : Var} {i : Nat} {view : Node S}
    {data : Dict RowId Val} (hi : outputToIndex I p o = .ok i) (hview : viewAt p i = .ok view)
    (hdd : divideData view = .ok data) {r s : RowId} {x y : Val} (hx : Dict.get? data r = some x)
    (hy : Dict.get? data s = some y) :
    sameRow I p o r s = .ok (decide (Dict.get? data r = Dict.get? data s)) := by
  unfold sameRow
  simp only [hi, hview, hdd, bind, Except.bind, Dict.getItem, hx, hy]
  change Except.ok (x == y) = _
  simp [beq_eq_decide]

theorem sameRow_missing {I : Iface (Node S)} {p : Product (Node S)} {o : Var} {i : Nat} {view : Node S}
    {data : Dict RowId Val} (hi : outputToIndex I p o = .ok i) (hview : viewAt p i = .ok view)
    (hdd : divideData view = .ok data) {r s : RowId} (hr : Dict.get? data r = none ∨ Dict.get? data s = none) :
    sameRow I p o r s = .error .keyError := by
  unfold sameRow
  simp only [hi, hview, hdd, bind, Except.bind, Dict.getItem]
  rcases h1 : Dict.get? data r with _ | a
  · rfl
  · rw [h1] at hr
    simp only [hr.resolve_left (by simp)]

theorem sameRowPairwise_eq {I : Iface (Node S)} {p : Product (Node S)} {o : Var} {i : Nat}
    {view : Node S} {data : Dict RowId Val} (hi : outputToIndex I p o = .ok i)
    (hview : viewAt p i = .ok view) (hdd : divideData view = .ok data) :
    sameRowPairwise I p o = fillPairs (sameRow I p o) (Dict.keys data) := by
  unfold sameRowPairwise
  simp only [hi, hview, hdd, bind, Except.bind]

/-- (helper) -/
theorem columns_reg (Z : List Var) (n : Nat) (p : Product (Cgpm n))
    (h : (cgpmTab Z (n + 1)).Reg (.product p : Node (Cgpm n))) (columns : List Var) (hn : columns.Nodup)
    (hc : ∀ o ∈ columns, ∃ view ∈ p.cgpms, o ∈ (cgpmI n).outputs view) :
    ∃ M, sameColumnPairwise (cgpmI n) p columns = .ok M ∧ M.size = columns.length ∧
      EquivalenceMatrix columns.length M.entry ∧
      ∀ (i j : Nat) x y, columns[i]? = some x → columns[j]? = some y →
        ∃ b, sameColumn (cgpmI n) p x y = .ok b ∧ (M.entry i j = if b then 1 else 0) ∧
          (b = true ↔ ∃ view ∈ p.cgpms, x ∈ (cgpmI n).outputs view ∧ y ∈ (cgpmI n).outputs view) := by
  have hreg : (productTab (cgpmI n) (cgpmTab Z n)).Reg p := h
  have hv := Product.validate_nodup hreg.2.1
  have hidx : ∀ o ∈ columns, ∃ i, outputToIndex (cgpmI n) p o = .ok i ∧
      ∃ c, p.cgpms[i]? = some c ∧ o ∈ (cgpmI n).outputs c := by
    intro o ho
    obtain ⟨c, hc1, hc2⟩ := hc o ho
    obtain ⟨i, hi, hg⟩ := outputToIndex_eq hv hc1 hc2
    exact ⟨i, hi, c, hg, hc2⟩
  choose! ix hix hview using hidx
  have hR : ∀ x ∈ columns, ∀ y ∈ columns, sameColumn (cgpmI n) p x y = .ok (ix x == ix y) := by
    intro x hx y hy
    unfold sameColumn
    rw [hix x hx, hix y hy]
    rfl
  obtain ⟨M, h1, h2, h3⟩ := fillPairs_spec (sameColumn (cgpmI n) p) (fun x y => ix x == ix y) columns
    hn hR (fun x _ => by simp) (fun x _ y _ => Bool.eq_iff_iff.2 (by rw [beq_iff_eq, beq_iff_eq]; exact eq_comm))
  refine ⟨M, h1, h2, equivalenceMatrix_of h3 (fun x _ => by simp)
    (fun x _ y _ => Bool.eq_iff_iff.2 (by rw [beq_iff_eq, beq_iff_eq]; exact eq_comm)) (fun x _ y _ z _ hxy hyz => ?_),
    fun i j x y hi hj => ⟨ix x == ix y, ?_, h3 i j x y hi hj, ?_⟩⟩
  · simp only [beq_iff_eq] at hxy hyz ⊢
    omega
  · exact hR x (List.mem_of_getElem? hi) y (List.mem_of_getElem? hj)
  · have hx := List.mem_of_getElem? hi
    have hy := List.mem_of_getElem? hj
    obtain ⟨vx, hvx, hox⟩ := hview x hx
    obtain ⟨vy, hvy, hoy⟩ := hview y hy
    rw [beq_iff_eq]
    constructor
    · intro he
      refine ⟨vx, List.mem_of_getElem? hvx, hox, ?_⟩
      rw [← he, hvx] at hvy
      cases hvy
      exact hoy
    · rintro ⟨c, hc, hxc, hyc⟩
      obtain ⟨k, hk⟩ := List.mem_iff_getElem?.1 hc
      rw [index_inj hv hvx hk hox hxc, index_inj hv hvy hk hoy hyc]

/-- C55: the matrix of `same_assignment_column_pairwise` is that of an equivalence relation, agrees
with `same_assignment_column`, and is 1 exactly where the two columns are in the same view. -/
theorem C55_columns (Z : List Var) (n : Nat) (p : Product (Cgpm n))
    (h : Tidy Z (n + 1) (.product p : Node (Cgpm n))) (columns : List Var) (hn : columns.Nodup)
    (hc : ∀ o ∈ columns, ∃ view ∈ p.cgpms, o ∈ (cgpmI n).outputs view) :
    ∃ M, sameColumnPairwise (cgpmI n) p columns = .ok M ∧ M.size = columns.length ∧
      EquivalenceMatrix columns.length M.entry ∧
      ∀ (i j : Nat) x y, columns[i]? = some x → columns[j]? = some y →
        ∃ b, sameColumn (cgpmI n) p x y = .ok b ∧ (M.entry i j = if b then 1 else 0) ∧
          (b = true ↔ ∃ view ∈ p.cgpms, x ∈ (cgpmI n).outputs view ∧ y ∈ (cgpmI n).outputs view) :=
  columns_reg Z n p (tidy_reg h) columns hn hc

/-- (helper) -/
theorem rows_reg (Z : List Var) (n : Nat) (p : Product (Cgpm (n + 1)))
    (h : (cgpmTab Z (n + 2)).Reg (.product p : Node (Cgpm (n + 1)))) (view : Cgpm (n + 1))
    (hv : view ∈ p.cgpms) (o : Var) (ho : o ∈ (cgpmI (n + 1)).outputs view) (z : Var)
    (supp : List Int) (hm : IsMixture view z supp) (g : Rng) :
    ∃ (rows : List RowId) (M : Mat), sameRowPairwise (S := Cgpm n) (cgpmI (n + 1)) p o = .ok M ∧
      rows.Nodup ∧ (∀ r, r ∈ rows ↔ heldCell (cgpmI (n + 1)) view g r z ≠ none) ∧
      M.size = rows.length ∧ EquivalenceMatrix rows.length M.entry ∧
      ∀ (i j : Nat) r s, rows[i]? = some r → rows[j]? = some s →
        ∃ b, sameRow (S := Cgpm n) (cgpmI (n + 1)) p o r s = .ok b ∧ (M.entry i j = if b then 1 else 0) ∧
          (b = true ↔ heldCell (cgpmI (n + 1)) view g r z = heldCell (cgpmI (n + 1)) view g s z) := by
  have hreg : (productTab (cgpmI (n + 1)) (cgpmTab Z (n + 1))).Reg p := h
  have hvr : (cgpmTab Z (n + 1)).Reg view := hreg.1 view hv
  obtain ⟨i, hi, hg⟩ := outputToIndex_eq (Product.validate_nodup hreg.2.1) hv ho
  obtain ⟨d, hd, hz, -, hdata⟩ := rowDivide_data hvr hm
  obtain ⟨hG, -⟩ := reg_rowDivide hvr hd
  have hcell : ∀ r, heldCell (cgpmI (n + 1)) view g r z = Dict.get? d.data r := fun r => by
    rw [heldCell_eq (cgpmTLaws Z (n + 1)) hvr, hdata]
  have hview : viewAt p i = .ok view := by
    unfold viewAt
    rw [hg]
  have hdd : divideData (S := Cgpm n) view = .ok d.data := by
    unfold divideData
    rw [hd]
  have hR : ∀ r ∈ Dict.keys d.data, ∀ s ∈ Dict.keys d.data,
      sameRow (S := Cgpm n) (cgpmI (n + 1)) p o r s =
        .ok (decide (Dict.get? d.data r = Dict.get? d.data s)) := by
    intro r hr s hs
    obtain ⟨x, hx⟩ := Dict.exists_get?_of_mem_keys hr
    obtain ⟨y, hy⟩ := Dict.exists_get?_of_mem_keys hs
    exact sameRow_eq hi hview hdd hx hy
  obtain ⟨M, h1, h2, h3⟩ := fillPairs_spec (sameRow (S := Cgpm n) (cgpmI (n + 1)) p o)
    (fun r s => decide (Dict.get? d.data r = Dict.get? d.data s)) (Dict.keys d.data) hG.1.nodup_data hR
    (fun _ _ => by simp) (fun r _ s _ => decide_eq_decide.2 eq_comm)
  refine ⟨Dict.keys d.data, M, ?_, hG.1.nodup_data, fun r => ?_, h2, equivalenceMatrix_of h3
    (fun _ _ => by simp) (fun r _ s _ => decide_eq_decide.2 eq_comm)
    (fun r _ s _ t _ hrs hst => ?_), fun a b r s hr hs => ⟨_, ?_, h3 a b r s hr hs, ?_⟩⟩
  · exact (sameRowPairwise_eq hi hview hdd).trans h1
  · rw [hcell]
    constructor
    · intro hr
      obtain ⟨x, hx⟩ := Dict.exists_get?_of_mem_keys hr
      rw [hx]
      exact Option.some_ne_none x
    · intro hr
      obtain ⟨x, hx⟩ := Option.ne_none_iff_exists'.1 hr
      exact Dict.mem_keys_of_get? hx
  · simp only [decide_eq_true_eq] at hrs hst ⊢
    exact hrs.trans hst
  · exact hR r (List.mem_of_getElem? hr) s (List.mem_of_getElem? hs)
  · rw [hcell, hcell, decide_eq_true_eq]

/-- (helper) -/
theorem row_missing (Z : List Var) (n : Nat) (p : Product (Cgpm (n + 1)))
    (h : (cgpmTab Z (n + 2)).Reg (.product p : Node (Cgpm (n + 1)))) (view : Cgpm (n + 1))
    (hv : view ∈ p.cgpms) (o : Var) (ho : o ∈ (cgpmI (n + 1)).outputs view) (z : Var)
    (supp : List Int) (hm : IsMixture view z supp) (g : Rng) (r s : RowId)
    (hr : heldCell (cgpmI (n + 1)) view g r z = none ∨ heldCell (cgpmI (n + 1)) view g s z = none) :
    sameRow (S := Cgpm n) (cgpmI (n + 1)) p o r s = .error .keyError := by
  have hreg : (productTab (cgpmI (n + 1)) (cgpmTab Z (n + 1))).Reg p := h
  have hvr : (cgpmTab Z (n + 1)).Reg view := hreg.1 view hv
  obtain ⟨i, hi, hg⟩ := outputToIndex_eq (Product.validate_nodup hreg.2.1) hv ho
  obtain ⟨d, hd, hz, -, hdata⟩ := rowDivide_data hvr hm
  have hcell : ∀ r, heldCell (cgpmI (n + 1)) view g r z = Dict.get? d.data r := fun r => by
    rw [heldCell_eq (cgpmTLaws Z (n + 1)) hvr, hdata]
  have hview : viewAt p i = .ok view := by
    unfold viewAt
    rw [hg]
  have hdd : divideData (S := Cgpm n) view = .ok d.data := by
    unfold divideData
    rw [hd]
  rw [hcell, hcell] at hr
  exact sameRow_missing hi hview hdd hr

/-- C55: `same_assignment_row_pairwise` is about the rows that have a cluster in the view of the
column, each once; its matrix is that of an equivalence relation, agrees with
`same_assignment_row`, and is 1 exactly where the two rows are in the same cluster. -/
theorem C55_rows (Z : List Var) (n : Nat) (p : Product (Cgpm (n + 1)))
    (h : Tidy Z (n + 2) (.product p : Node (Cgpm (n + 1)))) (view : Cgpm (n + 1))
    (hv : view ∈ p.cgpms) (o : Var) (ho : o ∈ (cgpmI (n + 1)).outputs view) (z : Var)
    (supp : List Int) (hm : IsMixture view z supp) (g : Rng) :
    ∃ (rows : List RowId) (M : Mat), sameRowPairwise (S := Cgpm n) (cgpmI (n + 1)) p o = .ok M ∧
      rows.Nodup ∧ (∀ r, r ∈ rows ↔ heldCell (cgpmI (n + 1)) view g r z ≠ none) ∧
      M.size = rows.length ∧ EquivalenceMatrix rows.length M.entry ∧
      ∀ (i j : Nat) r s, rows[i]? = some r → rows[j]? = some s →
        ∃ b, sameRow (S := Cgpm n) (cgpmI (n + 1)) p o r s = .ok b ∧ (M.entry i j = if b then 1 else 0) ∧
          (b = true ↔ heldCell (cgpmI (n + 1)) view g r z = heldCell (cgpmI (n + 1)) view g s z) :=
  rows_reg Z n p (tidy_reg h) view hv o ho z supp hm g

/-- A model of one view, in which rows 0 and 2 are in one cluster and row 1 in another. -/
noncomputable def onePane : Product (Node (Node Prim)) := ⟨[.flexMix pane2]⟩

theorem onePane_tidy : Tidy [5] 3 (.product onePane : Node (Node (Node Prim))) :=
  .product (n := 2) (cs := [(.flexMix pane2 : Node (Node Prim))])
    (by
      intro c hc
      rw [List.mem_singleton.1 hc]
      exact pane2_tidy)
    (by simp) rfl

example : ∃ M, sameRowPairwise (cgpmI 2) onePane 1 = .ok M ∧ M.size = 3 ∧
    M.entry 0 1 = 0 ∧ M.entry 0 2 = 1 ∧ M.entry 1 2 = 0 := ⟨_, rfl, rfl, rfl, rfl, rfl⟩

example : ∃ (view : Cgpm 2) (supp : List Int), view ∈ onePane.cgpms ∧
    (1 : Var) ∈ (cgpmI 2).outputs view ∧ IsMixture view 5 supp :=
  ⟨.flexMix pane2, _, List.mem_singleton.2 rfl,
    (show (1 : Var) ∈ [5, 1] by simp),
    rfl, rfl⟩

example : ∃ M, sameColumnPairwise (cgpmI 2) twoViews [1, 2, 3] = .ok M ∧ M.size = 3 ∧
    M.entry 0 1 = 0 ∧ M.entry 0 2 = 1 ∧ M.entry 2 1 = 0 := ⟨_, rfl, rfl, rfl, rfl, rfl⟩

end Cgpm2.Props
