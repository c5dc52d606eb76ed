import Verif.Props.Life
import Verif.Lemmas.LifeAsked

/-!
# C100, C101: questions to an ensemble, after any calls
-/

namespace Cgpm2.Props
open Spec Views Ensemble Life

/-- C101: the values that `simulate` draws, cluster numbers apart, are numbers that a primitive for the
variable takes: in models of any depth, for rows that are held or not. -/
theorem C101_values {n : Nat} {Z : List Var} {c : Cgpm n} (h : Tidy Z n c) (r : RowId) (t : List Var)
    (cs : Dict Var Val) (N : Option Nat) (g : Rng) (out : SimOut)
    (ho : ((cgpmI n).simulate r t cs [] N (c, g)).1 = .ok out) (s : Dict Var Val) (hs : s ∈ samplesOf out)
    (v : Var) (hv : v ∉ Z) (y : Val) (hy : (v, y) ∈ s) :
    y ≠ .nan ∧ ∃ p ∈ primsIn n c, p.outputs = [v] ∧ Accepts p y := by
  have hreg := tidy_reg h
  refine cgpmVal Z (fun v y => y ≠ .nan ∧ ∃ p ∈ primsIn n c, p.outputs = [v] ∧ Accepts p y) n c r t cs N g out hreg
    (shape_good n c fun b hb hk o ho p e1 e2 q hq => ?_) ho s hs (v, y) hy hv
  have hin := (reg_prims n _ hreg b hb).1.1
  obtain ⟨o', ho'⟩ := hin.out
  rw [ho', List.mem_singleton] at ho
  subst ho
  exact ⟨by simp, b, hb, ho', (Prim.legal_iff hin _).1 ((legal_of_kind e1 e2 (by rw [e1]; exact hk)).1 hq)⟩

section
variable (env : Outside) (hs : SaneOutside env) (outputs : List Var) (types : List Dist)
  (ht : ∀ d ∈ types, ValidType d) (hne : outputs ≠ []) (chains : Nat)
  (Cd Ci : List (List Var)) (g g' : Rng) (cs cs' : List (Cgpm 3 × Rng))
  (h : Ensemble.init env outputs [] types chains Cd Ci g = (.ok cs, g')) (calls : List Request)
  (hk : ∀ k ∈ calls, k.Proper outputs) (hc : Life calls cs cs')
include hs ht hne h hk hc

/-- C100: after any calls, `logpdf_score` gives one number per chain. -/
theorem C100_score (multiprocess : Bool) :
    ∃ ys : List ℝ, ys.length = chains ∧
      (Ensemble.logpdfScore (cgpmI 3) multiprocess cs').1 = .ok (ys.map Fl.fin) := by
  obtain ⟨hl, h2, h3⟩ := life_chains hs ht hne h hk hc
  obtain ⟨ys, hy⟩ := forall₂_of (R := fun (c : Cgpm 3 × Rng) (y : ℝ) => (cgpmI 3).logpdfScore c.1 = .ok (.fin y))
    fun c hc => chain_score (h3 c hc)
  exact ⟨ys, hy.length_eq.symm.trans h2, (C54_logpdf_score _ _ _ _).2 (List.forall₂_map_right_iff.2 hy)⟩

/-- C100: after any calls, `logpdf` of any values of columns, for a row that is not there, gives one
log-probability per chain: a number or `-inf`. -/
theorem C100_logpdf (r : RowId) (hr : ¬ (ledger calls).rows r) (t : Dict Var Val) (hne' : t ≠ [])
    (hn : (Dict.keys t).Nodup) (ho : ∀ v ∈ Dict.keys t, v ∈ outputs) (multiprocess : Bool) :
    ∃ ys : List Fl, ys.length = chains ∧ (∀ y ∈ ys, y.IsLogP) ∧
      (Ensemble.logpdf (cgpmI 3) r t none none multiprocess cs').1 = .ok ys := by
  obtain ⟨hl, h2, h3⟩ := life_chains hs ht hne h hk hc
  obtain ⟨ys, hy⟩ := forall₂_of (R := fun (c : Cgpm 3 × Rng) (y : Fl) =>
    ((cgpmI 3).logpdf r t [] [] c).1 = .ok y ∧ y.IsLogP) fun c hc => chain_logpdf (h3 c hc) hr hne' hn ho
  exact ⟨ys, hy.length_eq.symm.trans h2, fun y hy' => (forall₂_exists_mem hy hy').choose_spec.2.2,
    (C54_logpdf _ _ _ _ _ _ _ _).2 (hy.imp fun _ _ h => h.1)⟩

/-- C100: if the values are of the types of the columns, and missing only where the type takes it, the
log-probabilities are numbers, whatever is given of other columns. -/
theorem C100_positive (r : RowId) (hr : ¬ (ledger calls).rows r) (t k : Dict Var Val) (hne' : t ≠ [])
    (hn : (Dict.keys t ++ Dict.keys k).Nodup) (ho : ∀ vy ∈ t ++ k, Sensible outputs types vy.1 vy.2)
    (multiprocess : Bool) :
    ∃ ys : List ℝ, ys.length = chains ∧
      (Ensemble.logpdf (cgpmI 3) r t (some k) none multiprocess cs').1 = .ok (ys.map Fl.fin) := by
  obtain ⟨hl, h2, h3⟩ := life_chains hs ht hne h hk hc
  obtain ⟨ys, hy⟩ := forall₂_of (R := fun (c : Cgpm 3 × Rng) (y : ℝ) =>
    ((cgpmI 3).logpdf r t k [] c).1 = .ok (.fin y)) fun c hc => chain_positive hl (h3 c hc) hr hne' hn ho
  exact ⟨ys, hy.length_eq.symm.trans h2, (C54_logpdf _ _ _ _ _ _ _ _).2 (List.forall₂_map_right_iff.2 hy)⟩

/-- C100: in each chain, the log-probability of targets given constraints is the one of both minus the
one of the constraints. -/
theorem C100_conditional (r : RowId) (hr : ¬ (ledger calls).rows r) (t k : Dict Var Val) (hne' : t ≠ [])
    (hne'' : k ≠ []) (hn : (Dict.keys t ++ Dict.keys k).Nodup) (ho : ∀ v ∈ Dict.keys t, v ∈ outputs)
    (hk' : ∀ vy ∈ k, Sensible outputs types vy.1 vy.2) (multiprocess : Bool) :
    ∃ ls : List (Fl × ℝ), ls.length = chains ∧
      (Ensemble.logpdf (cgpmI 3) r (t ++ k) none none multiprocess cs').1 = .ok (ls.map (·.1)) ∧
      (Ensemble.logpdf (cgpmI 3) r k none none multiprocess cs').1 = .ok (ls.map fun l => .fin l.2) ∧
      (Ensemble.logpdf (cgpmI 3) r t (some k) none multiprocess cs').1 = .ok (ls.map fun l => l.1 - .fin l.2) := by
  obtain ⟨hl, h2, h3⟩ := life_chains hs ht hne h hk hc
  obtain ⟨ls, hy⟩ := forall₂_of (R := fun (c : Cgpm 3 × Rng) (l : Fl × ℝ) =>
    ((cgpmI 3).logpdf r (t ++ k) [] [] c).1 = .ok l.1 ∧ ((cgpmI 3).logpdf r k [] [] c).1 = .ok (.fin l.2) ∧
      ((cgpmI 3).logpdf r t k [] c).1 = .ok (l.1 - .fin l.2)) fun c hc => by
        obtain ⟨w, y, -, k1, k2, k3⟩ := chain_ratio hl (h3 c hc) hr hne' hne'' hn ho hk'
        exact ⟨(w, y), k1, k2, k3⟩
  exact ⟨ls, hy.length_eq.symm.trans h2,
    (C54_logpdf _ _ _ _ _ _ _ _).2 (List.forall₂_map_right_iff.2 (hy.imp fun _ _ h => h.1)),
    (C54_logpdf _ _ _ _ _ _ _ _).2 (List.forall₂_map_right_iff.2 (hy.imp fun _ _ h => h.2.1)),
    (C54_logpdf _ _ _ _ _ _ _ _).2 (List.forall₂_map_right_iff.2 (hy.imp fun _ _ h => h.2.2))⟩

/-- C100: after any calls, `simulate` of columns of a row that is not there gives one answer per chain,
of as many samples of exactly these columns as were asked for. -/
theorem C100_simulate (r : RowId) (hr : ¬ (ledger calls).rows r) (t : List Var) (hne' : t ≠ []) (k : Dict Var Val)
    (hn : (t ++ Dict.keys k).Nodup) (ho : ∀ v ∈ t, v ∈ outputs) (hk' : ∀ vy ∈ k, Sensible outputs types vy.1 vy.2)
    (N : Option Nat) (hN : N ≠ some 0) (multiprocess : Bool) :
    ∃ outs : List SimOut, outs.length = chains ∧ (∀ o ∈ outs, ExactSamples N t o) ∧
      (Ensemble.simulate (cgpmI 3) r t (some k) none N multiprocess cs').1 = .ok outs := by
  obtain ⟨hl, h2, h3⟩ := life_chains hs ht hne h hk hc
  obtain ⟨outs, hy⟩ := forall₂_of (R := fun (c : Cgpm 3 × Rng) (o : SimOut) =>
    ((cgpmI 3).simulate r t k [] N c).1 = .ok o ∧ ExactSamples N t o) fun c hc =>
      chain_simulate hl (h3 c hc) hr hne' hn ho hk' hN
  exact ⟨outs, hy.length_eq.symm.trans h2, fun y hy' => (forall₂_exists_mem hy hy').choose_spec.2.2,
    (C54_simulate _ _ _ _ _ _ _ _ _).2 (hy.imp fun _ _ h => h.1)⟩

/-- C101: after any calls, for any row, targets and constraints: every value that `simulate` draws for a
column is of the type of the column and is not missing. -/
theorem C101_simulate (r : RowId) (t : List Var) (k : Option (Dict Var Val)) (N : Option Nat) (multiprocess : Bool)
    (outs : List SimOut) (he : (Ensemble.simulate (cgpmI 3) r t k none N multiprocess cs').1 = .ok outs)
    (o : SimOut) (ho : o ∈ outs) (s : Dict Var Val) (hs' : s ∈ samplesOf o) (v : Var) (hv : v ∈ outputs) (y : Val)
    (hy : (v, y) ∈ s) : y ≠ .nan ∧ ∀ d, (v, d) ∈ outputs.zip types → ValueOf d y := by
  obtain ⟨hl, h2, h3⟩ := life_chains hs ht hne h hk hc
  obtain ⟨c, hc', h4⟩ := forall₂_exists_mem ((C54_simulate _ _ _ _ _ _ _ _ _).1 he) ho
  exact chain_values (h3 c hc') h4 hs' hy hv

/-- C101: a sample of columns, from any chain, can be observed in every chain as a row that has no data in
these columns. -/
theorem C101_observe (r : RowId) (t : List Var) (ht' : ∀ v ∈ t, v ∈ outputs) (k : Option (Dict Var Val))
    (N : Option Nat) (hN : N ≠ some 0) (multiprocess : Bool)
    (outs : List SimOut) (he : (Ensemble.simulate (cgpmI 3) r t k none N multiprocess cs').1 = .ok outs)
    (o : SimOut) (ho : o ∈ outs) (s : Dict Var Val) (hs' : s ∈ samplesOf o) (r' : RowId)
    (hr : ∀ v ∈ t, (ledger calls).cells r' v = none) (i : Option (Dict Var Val)) (multiprocess' : Bool) :
    ∃ cs'', Ensemble.observe (cgpmI 3) r' s i multiprocess' cs' = (.ok (), cs'') := by
  obtain ⟨hl, h2, h3⟩ := life_chains hs ht hne h hk hc
  obtain ⟨c, hc', h4⟩ := forall₂_exists_mem ((C54_simulate _ _ _ _ _ _ _ _ _).1 he) ho
  have h1 : 1 ≤ chains := by rw [← h2]; exact List.length_pos_of_mem hc'
  obtain ⟨-, -, hex⟩ := chain_exact hl (h3 c hc') ht' hN h4
  obtain ⟨k1, k2⟩ := hex s hs'
  refine (C99_observe env hs outputs types ht hne chains h1 Cd Ci g g' cs cs' h calls hk hc r' s k2
    (fun v hv => ht' v ((k1 v).1 hv)) i multiprocess').2 fun v y hy => ?_
  have hv := (k1 v).1 (Dict.mem_keys_of_get? hy)
  exact ⟨hr v hv, (chain_values (h3 c hc') h4 hs' (Dict.mem_of_get? hy) (ht' v hv)).2⟩

end

/-! ## A concrete ensemble -/

/-- After a row is given, questions about another one. -/
theorem asked_example : ∃ cs g' cs', Ensemble.init Concrete.outside [1, 2] [] [⟨"normal", none⟩, ⟨"categorical", some 3⟩] 2 [] []
      Concrete.gseq = (.ok cs, g') ∧
    (∀ k ∈ [Request.observe (some 0) [(1, .num 3), (2, .num 1)] none false], k.Proper [1, 2]) ∧
    Life [.observe (some 0) [(1, .num 3), (2, .num 1)] none false] cs cs' ∧
    ¬ (ledger [.observe (some 0) [(1, .num 3), (2, .num 1)] none false]).rows (some 1) ∧
    (ledger [.observe (some 0) [(1, .num 3), (2, .num 1)] none false]).cells (some 1) 2 = none ∧
    Sensible [1, 2] [⟨"normal", none⟩, ⟨"categorical", some 3⟩] 1 (.num 5) ∧
    Sensible [1, 2] [⟨"normal", none⟩, ⟨"categorical", some 3⟩] 2 (.num 1) ∧
    ∃ o1 o2, (Ensemble.simulate (cgpmI 3) (some 1) [2] (some [(1, .num 5)]) none (some 4) false cs').1 = .ok [o1, o2] ∧
      (samplesOf o1).length = 4 := by
  obtain ⟨cs, g', h, hlen⟩ := pair_made
  have hp : ∀ k ∈ [Request.observe (some 0) [(1, .num 3), (2, .num 1)] none false], k.Proper [1, 2] := by
    intro k hk
    rw [List.mem_singleton.1 hk]
    simp [Request.Proper, Dict.keys]
  have c1 : ValueOf ⟨"categorical", some 3⟩ (.num 1) := by
    refine ⟨fun _ => ⟨3, 1, rfl, by omega, by simp⟩, fun h => ?_, fun h => ?_⟩ <;> simp at h
  have n1 : ∀ q, ValueOf ⟨"normal", none⟩ (.num q) := by
    intro q
    refine ⟨fun h => ?_, fun h => ?_, fun h => ?_⟩ <;> simp at h
  obtain ⟨cs', h1⟩ := (C99_observe _ Concrete.outside_sane _ _ Concrete.pair_types (by simp) 2 (by simp) _ _ _ _ _ _ h []
    (by simp) (.nil cs) (some 0) [(1, .num 3), (2, .num 1)] (by simp [Dict.keys]) (by simp [Dict.keys]) none false).2 (by
      intro v y hy
      have hm := Dict.mem_of_get? hy
      simp only [List.mem_cons, Prod.mk.injEq, List.not_mem_nil, or_false] at hm
      refine ⟨rfl, fun d hd => ?_⟩
      simp only [List.zip_cons_cons, List.zip_nil_right, List.mem_cons, Prod.mk.injEq, List.not_mem_nil, or_false] at hd
      rcases hm with ⟨rfl, rfl⟩ | ⟨rfl, rfl⟩ <;> rcases hd with ⟨e, rfl⟩ | ⟨e, rfl⟩
      · exact n1 _
      · cases e
      · cases e
      · exact c1)
  have hlife : Life [.observe (some 0) [(1, .num 3), (2, .num 1)] none false] cs cs' := .cons h1 (.nil _)
  have hr : ¬ (ledger [.observe (some 0) [(1, .num 3), (2, .num 1)] none false]).rows (some 1) := by
    simp [ledger, Request.enter, Ledger.observe, Ledger.empty]
  have s1 : Sensible [1, 2] [⟨"normal", none⟩, ⟨"categorical", some 3⟩] 1 (.num 5) := by
    refine ⟨by simp, fun d hd => ⟨?_, fun h => by cases h⟩⟩
    simp only [List.zip_cons_cons, List.zip_nil_right, List.mem_cons, Prod.mk.injEq, List.not_mem_nil, or_false] at hd
    rcases hd with ⟨e, rfl⟩ | ⟨e, rfl⟩
    · exact n1 _
    · cases e
  have s2 : Sensible [1, 2] [⟨"normal", none⟩, ⟨"categorical", some 3⟩] 2 (.num 1) := by
    refine ⟨by simp, fun d hd => ⟨?_, fun h => by cases h⟩⟩
    simp only [List.zip_cons_cons, List.zip_nil_right, List.mem_cons, Prod.mk.injEq, List.not_mem_nil, or_false] at hd
    rcases hd with ⟨e, rfl⟩ | ⟨e, rfl⟩
    · cases e
    · exact c1
  refine ⟨cs, g', cs', h, hp, hlife, hr, by simp [ledger, Request.enter, Ledger.observe, Ledger.empty], s1, s2, ?_⟩
  obtain ⟨outs, k1, k2, k3⟩ := C100_simulate _ Concrete.outside_sane _ _ Concrete.pair_types (by simp) 2 _ _ _ _ _ _ h _ hp
    hlife (some 1) hr [2] (by simp) [(1, .num 5)] (by simp [Dict.keys]) (by simp)
    (by intro vy hvy; rw [List.mem_singleton.1 hvy]; exact s1) (some 4) (by simp) false
  rcases outs with _ | ⟨o1, _ | ⟨o2, _ | ⟨o3, outs⟩⟩⟩ <;> simp only [List.length_cons, List.length_nil] at k1 <;>
    first | omega | skip
  exact ⟨o1, o2, k3, (k2 o1 (by simp)).2.1⟩

/-- A coin-divided mixture, asked for its cluster and column 3 given column 1. -/
example (r : RowId) (g : Rng) : Tidy [5] 2 (.finMix Concrete.finView : Node (Node Prim)) ∧ (3 : Var) ∉ [(5 : Var)] ∧
    ∃ out, ((cgpmI 2).simulate r [5, 3] [(1, .num 2)] [] (some 2) ((.finMix Concrete.finView : Node (Node Prim)), g)).1 =
      .ok out ∧ ExactSamples (some 2) [5, 3] out := by
  refine ⟨Concrete.finView_tidy, by decide, C34_total_partial Concrete.finView_tidy (Concrete.finView_empty r)
    ⟨by simp, by simp [Dict.keys], by change ∀ v ∈ _, v ∈ [5, 3, 1]; simp [Dict.keys],
      fun kv hkv => Concrete.finView_askable (by simp at hkv; rw [hkv]; simp)⟩
    (.inr (C25_positive Concrete.finView_tidy (Concrete.finView_empty r) (by simp) (by simp [Dict.keys])
      (by change ∀ kv ∈ (_ : Dict Var Val), kv.1 ∈ [5, 3, 1]; simp)
      (fun kv hkv => Concrete.finView_plausible (by simp at hkv; simp [Concrete.query0, hkv])) g)) (by simp)⟩

end Cgpm2.Props
