import Verif.Props.Life
import Verif.Lemmas.LifeQueries

/-!
# C102 to C105: questions about information and structure, one query per chain, saving and loading
-/

namespace Cgpm2.Props
open Spec Views Ensemble Life

section
variable (env : Outside) (hs : SaneOutside env) (outputs : List Var) (types : List Dist)
  (ht : ∀ d ∈ types, ValidType d) (hne : outputs ≠ []) (chains : Nat)
  (Cd Ci : List (List Var)) (g g' : Rng) (cs cs' : List (Cgpm 3 × Rng))
  (h : Ensemble.init env outputs [] types chains Cd Ci g = (.ok cs, g')) (calls : List Request)
  (hk : ∀ k ∈ calls, k.Proper outputs) (hc : Life calls cs cs')
include hs ht hne h hk hc

/-! ## C102 Mutual information -/

/-- C102: after any calls, `mutual_information` between two sets of columns, given values of other columns,
answers with one estimate and variance per chain.  Both are numbers; both are 0 in a chain that has no
column of the first set in a view with one of the second. -/
theorem C102_mutual_information (hr : ¬ (ledger calls).rows none) (t0 t1 : List Var) (k : Option (Dict Var Val))
    (h0 : t0 ≠ []) (h1 : t1 ≠ []) (hn0 : t0.Nodup) (hn1 : t1.Nodup) (hnk : (Dict.keys (k.getD [])).Nodup)
    (hq : LegalMiQuery outputs t0 t1 (Dict.keys (k.getD [])) [])
    (hk' : ∀ vy ∈ k.getD [], Sensible outputs types vy.1 vy.2) (T N : Option Nat) (multiprocess : Bool) :
    ∃ ms : List (ℝ × ℝ), ms.length = chains ∧
      (Ensemble.mutualInformation (cgpmI 3) t0 t1 k none T N multiprocess cs').1 =
        .ok (ms.map fun m => (.fin m.1, .fin m.2)) ∧
      List.Forall₂ (fun c m => ∃ x, c.1 = whole x ∧
        ((∀ a ∈ t0, ∀ b ∈ t1, ¬ Together x a b) → m = (0, 0))) cs' ms := by
  obtain ⟨hl, h2, h3⟩ := life_chains hs ht hne h hk hc
  obtain ⟨ms, hm⟩ := forall₂_of (R := fun (c : Cgpm 3 × Rng) (m : ℝ × ℝ) =>
    (Entropy.mutualInformation (cgpmI 3) t0 t1 k none T N c).1 = .ok (.fin m.1, .fin m.2) ∧
      ∃ x, c.1 = whole x ∧ ((∀ a ∈ t0, ∀ b ∈ t1, ¬ Together x a b) → m = (0, 0))) (fun c hc => by
    obtain ⟨m, v, hmv⟩ := chain_mi hl (h3 c hc) hr h0 h1 hn0 hn1 hnk hq hk' T N
    obtain ⟨x, Z, e, -⟩ := chain_parts (h3 c hc)
    refine ⟨(m, v), hmv, x, e, fun hd => ?_⟩
    rw [chain_mi_zero hl (h3 c hc) hr h0 h1 hn0 hn1 hnk hq hk' T N e hd] at hmv
    cases hmv
    rfl)
  exact ⟨ms, hm.length_eq.symm.trans h2, (toAll_fst _ _ _ _).2 (List.forall₂_map_right_iff.2 (hm.imp fun _ _ h => h.1)),
    hm.imp fun _ _ h => h.2⟩

/-- C102: if the sets share some columns and not others, or a target is also given or marginalised, or one
is both given and marginalised, `mutual_information` raises ValueError, whatever the columns are. -/
theorem C102_rejects (h1 : 1 ≤ chains) (t0 t1 : List Var) (k : Option (Dict Var Val)) (m : Option (List Var))
    (hq : ∀ known, ¬ LegalMiQuery known t0 t1 (Dict.keys (k.getD [])) (m.getD []))
    (T N : Option Nat) (multiprocess : Bool) :
    (Ensemble.mutualInformation (cgpmI 3) t0 t1 k m T N multiprocess cs').1 = .error .valueError := by
  obtain ⟨hl, h2, h3⟩ := life_chains hs ht hne h hk hc
  refine toAll_raise _ _ (by intro e; rw [e] at h2; simp at h2; omega) fun c _ => ?_
  exact congrArg (·.1) (C56_rejects (cgpmI 3) (c := c.1) (hq _) T N c.2)

/-- With a variable to marginalise, `mutual_information` raises, after any calls. -/
theorem C102_violated (h1 : 1 ≤ chains) (t0 t1 : List Var) (k : Option (Dict Var Val)) (m : List Var) (hm : m ≠ [])
    (T N : Option Nat) (multiprocess : Bool) :
    ∃ e, (Ensemble.mutualInformation (cgpmI 3) t0 t1 k (some m) T N multiprocess cs').1 = .error e := by
  obtain ⟨hl, h2, h3⟩ := life_chains hs ht hne h hk hc
  rcases he : (Ensemble.mutualInformation (cgpmI 3) t0 t1 k (some m) T N multiprocess cs').1 with e | ms
  · exact ⟨e, rfl⟩
  · have hf := (toAll_fst _ _ _ _).1 he
    cases hf with
    | nil => rw [← h2] at h1; simp at h1
    | @cons c _ _ _ hcc _ =>
      obtain ⟨e, he⟩ := C58_violated (cgpmI 3) t0 t1 k (ms := some m) hm T N c.1 c.2
      cases he.symm.trans hcc

/-! ## C103 Co-assignment -/

/-- C103: after any calls, `get_same_assignment_column` of two columns says for each chain if they are in
one view. -/
theorem C103_column (a b : Var) (ha : a ∈ outputs) (hb : b ∈ outputs) (multiprocess : Bool) :
    ∃ bs : List Bool, (getSameColumn a b multiprocess cs').1 = .ok bs ∧
      List.Forall₂ (fun c q => ∃ x, c.1 = whole x ∧ (q = true ↔ Together x a b)) cs' bs := by
  obtain ⟨hl, h2, h3⟩ := life_chains hs ht hne h hk hc
  obtain ⟨i, hi⟩ := List.getElem?_of_mem ha
  obtain ⟨j, hj⟩ := List.getElem?_of_mem hb
  obtain ⟨bs, hy⟩ := forall₂_of (R := fun (c : Cgpm 3 × Rng) (q : Bool) =>
    (structural (fun x => sameColumn (cgpmI 2) x a b) c).1 = .ok q ∧
      ∃ x, c.1 = whole x ∧ (q = true ↔ Together x a b)) (fun c hc => by
    obtain ⟨x, e, -, M, -, -, -, hM⟩ := chain_columns (h3 c hc)
    obtain ⟨q, k1, -, k3⟩ := hM i j a b hi hj
    exact ⟨q, k1, x, e, k3⟩)
  exact ⟨bs, (toAll_fst _ _ _ _).2 (hy.imp fun _ _ h => h.1), hy.imp fun _ _ h => h.2⟩

/-- C103: `get_same_assignment_column_pairwise` gives for each chain the matrix of "in one view", in the
order of the columns of the ensemble. -/
theorem C103_column_pairwise (multiprocess : Bool) :
    ∃ Ms : List Mat, (getSameColumnPairwise outputs multiprocess cs').1 = .ok Ms ∧
      List.Forall₂ (fun c M => ∃ x, c.1 = whole x ∧ M.size = outputs.length ∧
        EquivalenceMatrix outputs.length M.entry ∧
        ∀ (i j : Nat) a b, outputs[i]? = some a → outputs[j]? = some b → (M.entry i j = 1 ↔ Together x a b)) cs' Ms := by
  obtain ⟨hl, h2, h3⟩ := life_chains hs ht hne h hk hc
  obtain ⟨Ms, hy⟩ := forall₂_of (R := fun (c : Cgpm 3 × Rng) (M : Mat) =>
    (structural (fun x => sameColumnPairwise (cgpmI 2) x outputs) c).1 = .ok M ∧ ∃ x, c.1 = whole x ∧
      M.size = outputs.length ∧ EquivalenceMatrix outputs.length M.entry ∧
      ∀ (i j : Nat) a b, outputs[i]? = some a → outputs[j]? = some b → (M.entry i j = 1 ↔ Together x a b)) (fun c hc => by
    obtain ⟨x, e, -, M, k1, k2, k3, hM⟩ := chain_columns (h3 c hc)
    refine ⟨M, k1, x, e, k2, k3, fun i j a b hi hj => ?_⟩
    obtain ⟨q, -, k4, k5⟩ := hM i j a b hi hj
    rw [← k5, k4]
    cases q <;> simp)
  exact ⟨Ms, (toAll_fst _ _ _ _).2 (hy.imp fun _ _ h => h.1), hy.imp fun _ _ h => h.2⟩

/-- C103: after any calls, `get_same_assignment_row` of a column and two rows that have a value in it says
for each chain if the rows are in one cluster of the view of the column. -/
theorem C103_row (o : Var) (ho : o ∈ outputs) (r s : RowId) (hr : (ledger calls).cells r o ≠ none)
    (hs' : (ledger calls).cells s o ≠ none) (multiprocess : Bool) :
    ∃ bs : List Bool, (getSameRow o r s multiprocess cs').1 = .ok bs ∧
      List.Forall₂ (fun c q => ∃ x view, c.1 = whole x ∧ view ∈ x.cgpms ∧ o ∈ viewColumns view ∧
        (q = true ↔ SameCluster view r s)) cs' bs := by
  obtain ⟨hl, h2, h3⟩ := life_chains hs ht hne h hk hc
  obtain ⟨bs, hy⟩ := forall₂_of (R := fun (c : Cgpm 3 × Rng) (q : Bool) =>
    (structural (fun x => sameRow (S := Cgpm 1) (cgpmI 2) x o r s) c).1 = .ok q ∧
      ∃ x view, c.1 = whole x ∧ view ∈ x.cgpms ∧ o ∈ viewColumns view ∧ (q = true ↔ SameCluster view r s)) (fun c hc => by
    obtain ⟨x, view, e, k1, k2, k3, -, rows, M, -, -, k6, -, -, hM⟩ := chain_rows (h3 c hc) ho
    obtain ⟨i, hi⟩ := List.getElem?_of_mem ((k6 r).2 (k3 r hr))
    obtain ⟨j, hj⟩ := List.getElem?_of_mem ((k6 s).2 (k3 s hs'))
    obtain ⟨q, k7, -, k8⟩ := hM i j r s hi hj
    exact ⟨q, k7, x, view, e, k1, k2, k8⟩)
  exact ⟨bs, (toAll_fst _ _ _ _).2 (hy.imp fun _ _ h => h.1), hy.imp fun _ _ h => h.2⟩

/-- C103: after any calls, `get_same_assignment_row_pairwise` of a column gives for each chain the matrix of
"in one cluster" for the rows of the view of the column: all that have a value in the column, and none that
was not given. -/
theorem C103_row_pairwise (o : Var) (ho : o ∈ outputs) (multiprocess : Bool) :
    ∃ Ms : List Mat, (getSameRowPairwise o multiprocess cs').1 = .ok Ms ∧
      List.Forall₂ (fun c M => ∃ x view, c.1 = whole x ∧ view ∈ x.cgpms ∧ o ∈ viewColumns view ∧
        ∃ rows : List RowId, rows.Nodup ∧ (∀ r, r ∈ rows ↔ HasRow view r) ∧
          (∀ r, (ledger calls).cells r o ≠ none → r ∈ rows) ∧ (∀ r ∈ rows, (ledger calls).rows r) ∧
          M.size = rows.length ∧ EquivalenceMatrix rows.length M.entry ∧
          ∀ (i j : Nat) r s, rows[i]? = some r → rows[j]? = some s → (M.entry i j = 1 ↔ SameCluster view r s)) cs' Ms := by
  obtain ⟨hl, h2, h3⟩ := life_chains hs ht hne h hk hc
  obtain ⟨Ms, hy⟩ := forall₂_of (R := fun (c : Cgpm 3 × Rng) (M : Mat) =>
    (structural (fun x => sameRowPairwise (S := Cgpm 1) (cgpmI 2) x o) c).1 = .ok M ∧
      ∃ x view, c.1 = whole x ∧ view ∈ x.cgpms ∧ o ∈ viewColumns view ∧
        ∃ rows : List RowId, rows.Nodup ∧ (∀ r, r ∈ rows ↔ HasRow view r) ∧
          (∀ r, (ledger calls).cells r o ≠ none → r ∈ rows) ∧ (∀ r ∈ rows, (ledger calls).rows r) ∧
          M.size = rows.length ∧ EquivalenceMatrix rows.length M.entry ∧
          ∀ (i j : Nat) r s, rows[i]? = some r → rows[j]? = some s → (M.entry i j = 1 ↔ SameCluster view r s)) (fun c hc => by
    obtain ⟨x, view, e, k1, k2, k3, k3', rows, M, k4, k5, k6, k7, k8, hM⟩ := chain_rows (h3 c hc) ho
    refine ⟨M, k4, x, view, e, k1, k2, rows, k5, k6, fun r hr => (k6 r).2 (k3 r hr), fun r hr => k3' r ((k6 r).1 hr),
      k7, k8, fun i j r s hi hj => ?_⟩
    obtain ⟨q, -, k9, k10⟩ := hM i j r s hi hj
    rw [← k10, k9]
    cases q <;> simp)
  exact ⟨Ms, (toAll_fst _ _ _ _).2 (hy.imp fun _ _ h => h.1), hy.imp fun _ _ h => h.2⟩

/-- C103: a row that was never given has no assignment: KeyError. -/
theorem C103_unknown_row (h1 : 1 ≤ chains) (o : Var) (ho : o ∈ outputs) (r s : RowId)
    (hr : ¬ (ledger calls).rows r ∨ ¬ (ledger calls).rows s) (multiprocess : Bool) :
    (getSameRow o r s multiprocess cs').1 = .error .keyError := by
  obtain ⟨hl, h2, h3⟩ := life_chains hs ht hne h hk hc
  refine toAll_raise _ _ (by intro e; rw [e] at h2; simp at h2; omega) fun c hc => ?_
  obtain ⟨x, view, e, k1, k2, -, k4, -⟩ := chain_rows (h3 c hc) ho
  exact chain_row_missing (h3 c hc) ho e k1 k2 (hr.imp (fun h h' => h (k4 r h')) (fun h h' => h (k4 s h')))

/-- Not all rows that were given have an assignment: if a new row is given values only in columns that no
chain has in one view with `b`, then `get_same_assignment_row` for `b` and the row raises KeyError. -/
theorem C103_violated (h1 : 1 ≤ chains) (r : RowId) (hr : ¬ (ledger calls).rows r) (o : Dict Var Val)
    (ho : ∀ v ∈ Dict.keys o, v ∈ outputs) (i : Option (Dict Var Val)) (mp : Bool) (cs'' : List (Cgpm 3 × Rng))
    (he : Ensemble.observe (cgpmI 3) r o i mp cs' = (.ok (), cs'')) (b : Var) (hb : b ∈ outputs)
    (hd : ∀ c ∈ cs', ∀ x, c.1 = whole x → ∀ a ∈ Dict.keys o, ¬ Together x a b) (s : RowId) (multiprocess : Bool) :
    (getSameRow b r s multiprocess cs'').1 = .error .keyError := by
  obtain ⟨hl, h2, h3⟩ := life_chains hs ht hne h hk hc
  have hf := (C54_observe _ _ _ _ _ _ _).1 he
  refine toAll_raise _ _ (by intro e; rw [e] at hf; rw [← h2, hf.length_eq] at h1; simp at h1) fun c' hc' => ?_
  obtain ⟨c, hc, k1⟩ := forall₂_exists_mem hf hc'
  obtain ⟨x, Z, e, -⟩ := chain_parts (h3 c hc)
  exact chain_skipped (h3 c hc) hr ho hb e (hd c hc x e) k1 s

/-! ## C105 Saving and loading -/

/-- C105: after any calls, if a new ensemble can be made of the same arguments, loading returns what was
saved: each chain of the loaded ensemble answers every later sequence of calls, with any random state, as the
chain that was saved. -/
theorem C105_loads (env' : Outside) (rng rng' : Rng) (new : List (Cgpm 3 × Rng))
    (hnew : Ensemble.init env' outputs [] types chains Cd Ci rng = (.ok new, rng')) :
    ∃ cs'', fromMetadata env' (toMetadata outputs [] types chains Cd Ci cs') rng = (.ok cs'', rng') ∧
      List.Forall₂ (fun c c' => ∀ as g, answers (cgpmI 3) as (c'.1, g) = answers (cgpmI 3) as (c.1, g)) cs' cs'' := by
  obtain ⟨hl, h2, h3⟩ := life_chains hs ht hne h hk hc
  obtain ⟨cs'', hy⟩ := forall₂_of (R := fun c c' : Cgpm 3 × Rng =>
    (cgpmI 3).fromMetadata ((cgpmI 3).toMetadata c.1) = .ok c'.1 ∧ c'.2 = rng') (fun c hc => by
    obtain ⟨x, Z, e, hcc, -⟩ := chain_parts (h3 c hc)
    have hi : (cgpmSem 3).Inv c.1 := by rw [e]; exact (cgpmTLaws Z 3).inv _ hcc.reg
    exact ⟨((cgpmSem 3).strip c.1, rng'), (cgpmLaws 3).clone c.1 hi, rfl⟩)
  have hload : fromMetadata env' (toMetadata outputs [] types chains Cd Ci cs') rng = (.ok cs'', rng') := by
    unfold fromMetadata
    refine (bind_run (m := Ensemble.init env' outputs [] types chains Cd Ci) hnew).trans ?_
    rw [Py.get_bind]
    refine Prod.ext ?_ rfl
    refine (Ensemble.mapM_ok_iff _ _ _).2 (List.forall₂_map_left_iff.2 (hy.imp fun c c' hcc => ?_))
    rw [hcc.1, ← hcc.2]
    rfl
  refine ⟨cs'', hload, (reload_step (outputs := outputs) (types := types) hload h3).2.2.imp fun c c' hcc as g => ?_⟩
  exact (answers_E (cgpmLaws 3) as hcc.1 g).symm

/-- C105: whenever loading returns, the chains answer as those that were saved, and hold the data the user
gave. -/
theorem C105_same_answers (env' : Outside) (rng rng' : Rng) (cs'' : List (Cgpm 3 × Rng))
    (hload : fromMetadata env' (toMetadata outputs [] types chains Cd Ci cs') rng = (.ok cs'', rng')) :
    cs''.length = chains ∧ (∀ c ∈ cs'', Keeps outputs types (ledger calls) c) ∧
      List.Forall₂ (fun c c' => ∀ as g, answers (cgpmI 3) as (c'.1, g) = answers (cgpmI 3) as (c.1, g)) cs' cs'' := by
  obtain ⟨hl, h2, h3⟩ := life_chains hs ht hne h hk hc
  obtain ⟨k1, k2, k3⟩ := reload_step hload h3
  exact ⟨k1.trans h2, fun c hc => chain_keeps (k2 c hc), k3.imp fun c c' hcc as g => (answers_E (cgpmLaws 3) as hcc.1 g).symm⟩

/-- The chains of a loaded ensemble are not independent: they all have the same random state, so two chains
that were saved with the same structure and data answer alike for ever, whatever their random states were. -/
theorem C105_violated (env' : Outside) (rng rng' : Rng) (cs'' : List (Cgpm 3 × Rng))
    (hload : fromMetadata env' (toMetadata outputs [] types chains Cd Ci cs') rng = (.ok cs'', rng')) :
    (∀ c ∈ cs'', c.2 = rng') ∧
    ∀ (i j : Nat) c d c' d', cs'[i]? = some c → cs'[j]? = some d → c.1 = d.1 → cs''[i]? = some c' → cs''[j]? = some d' →
      ∀ as, answers (cgpmI 3) as c' = answers (cgpmI 3) as d' := by
  obtain ⟨hl, h2, h3⟩ := life_chains hs ht hne h hk hc
  obtain ⟨k1, k2, k3⟩ := reload_step hload h3
  have hst : ∀ c ∈ cs'', c.2 = rng' := fun c hc => by
    obtain ⟨b, -, hb⟩ := forall₂_exists_mem k3 hc
    exact hb.2
  refine ⟨hst, fun i j c d c' d' hc hd e hc' hd' as => ?_⟩
  have get : ∀ {n : Nat} {a b : Cgpm 3 × Rng}, cs'[n]? = some a → cs''[n]? = some b → (cgpmSem 3).E a.1 b.1 := by
    intro n a b ha hb
    obtain ⟨hn, rfl⟩ := List.getElem?_eq_some_iff.1 ha
    obtain ⟨hn', rfl⟩ := List.getElem?_eq_some_iff.1 hb
    exact (k3.get hn hn').1
  have e1 := answers_E (cgpmLaws 3) as (get hc hc') rng'
  have e2 := answers_E (cgpmLaws 3) as (get hd hd') rng'
  rw [show c' = (c'.1, rng') from Prod.ext rfl (hst c' (List.mem_of_getElem? hc')),
    show d' = (d'.1, rng') from Prod.ext rfl (hst d' (List.mem_of_getElem? hd')), ← e1, ← e2, e]

end

/-! ## C104 One query per chain -/

section
variable {S : Type} (I : Iface S)

/-- (helper) -/
theorem perChain_map {A B : Type} (f : A → B) {l : List A} {n : Nat} (h : l.length = n) :
    perChain n (some (l.map f)) = .ok (l.map fun q => some (f q)) := by
  simp [perChain, h]

/-- (helper) -/
theorem map_range {Q β : Type} {queries : List Q} {n : Nat} (hl : queries.length = n) (F : Nat → β) (G : Q → β)
    (h : ∀ i (hi : i < queries.length), F i = G queries[i]) : (List.range n).map F = queries.map G := by
  refine List.ext_getElem (by simp [hl]) fun i h1 h2 => ?_
  simp only [List.length_map] at h2
  simp only [List.getElem_map, List.getElem_range]
  exact h i h2

/-- (helper) -/
theorem mapper_queries {A Q : Type} (multiprocess : Bool) (f : Q → Py (S × Rng) A) (queries : List Q)
    {jobs : List (Py (S × Rng) A)} (hj : jobs = queries.map f) (cs : List (S × Rng)) (out : List A) :
    (mapper multiprocess jobs cs).1 = .ok out ↔
      List.Forall₂ (fun qc y => (f qc.1 qc.2).1 = .ok y) (queries.zip cs) out := by
  rw [hj, mapper_fst, Ensemble.mapM_ok_iff, List.zip_map_left, List.forall₂_map_left_iff]
  rfl

/-- C104: `simulate_heterogeneous` asks the i-th chain the i-th query and returns the answers in the order
of the chains. -/
theorem C104_simulate (queries : List (Int × List Var × Dict Var Val × Dict Var Val × Nat))
    (multiprocess : Bool) (cs : List (S × Rng)) (hl : queries.length = cs.length) (out : List SimOut) :
    (Ensemble.simulateHeterogeneous I (some (queries.map (·.1))) (some (queries.map (·.2.1)))
        (some (queries.map (·.2.2.1))) (some (queries.map (·.2.2.2.1))) (some (queries.map (·.2.2.2.2)))
        multiprocess cs).1 = .ok out ↔
      List.Forall₂ (fun qc y => (I.simulate (some qc.1.1) qc.1.2.1 qc.1.2.2.1 qc.1.2.2.2.1 (some qc.1.2.2.2.2) qc.2).1 =
        .ok y) (queries.zip cs) out := by
  unfold Ensemble.simulateHeterogeneous
  simp only [perChain_map _ hl, bind, Except.bind, pure, Except.pure]
  refine mapper_queries multiprocess (fun q : Int × List Var × Dict Var Val × Dict Var Val × Nat =>
    I.simulate (some q.1) q.2.1 q.2.2.1 q.2.2.2.1 (some q.2.2.2.2)) queries (map_range hl _ _ fun i hi => ?_) cs out
  simp only [List.getD_eq_getElem?_getD, List.getElem?_map, List.getElem?_eq_getElem hi, Option.map_some,
    Option.getD_some]
  exact callSimulate_eq I _ _ (some _) (some _) (some _)

/-- C104: `simulate_heterogeneous_bulk` asks the i-th chain the queries of the i-th list, one after the
other. -/
theorem C104_simulate_bulk (queries : List (List (RowId × List Var × Dict Var Val × Dict Var Val × Nat)))
    (multiprocess : Bool) (cs : List (S × Rng)) (hl : queries.length = cs.length) (out : List (List SimOut)) :
    (Ensemble.simulateHeterogeneousBulk I (some (queries.map fun l => l.map (·.1)))
        (some (queries.map fun l => l.map (·.2.1))) (some (queries.map fun l => l.map (·.2.2.1)))
        (some (queries.map fun l => l.map (·.2.2.2.1))) (some (queries.map fun l => l.map (·.2.2.2.2)))
        multiprocess cs).1 = .ok out ↔
      List.Forall₂ (fun qc y => (oneByOne (fun k : _ × _ × _ × _ × _ =>
        I.simulate k.1 k.2.1 k.2.2.1 k.2.2.2.1 (some k.2.2.2.2)) qc.1 qc.2).1 = .ok y) (queries.zip cs) out := by
  unfold Ensemble.simulateHeterogeneousBulk
  simp only [perChain_map _ hl, bind, Except.bind, pure, Except.pure]
  refine mapper_queries multiprocess (fun q => oneByOne (fun k : RowId × List Var × Dict Var Val × Dict Var Val × Nat =>
    I.simulate k.1 k.2.1 k.2.2.1 k.2.2.2.1 (some k.2.2.2.2)) q) queries (map_range hl _ _ fun i hi => ?_) cs out
  simp only [List.getD_eq_getElem?_getD, List.getElem?_map, List.getElem?_eq_getElem hi, Option.map_some,
    Option.getD_some, List.map_map, Function.comp_def]
  have hm := makeArgsList_map (A := RowId × List Var × Dict Var Val × Dict Var Val × Nat)
    [fun k => ofRow k.1, fun k => .vars k.2.1, fun k => .dict k.2.2.1, fun k => .dict k.2.2.2.1,
      fun k => .count k.2.2.2.2] (by simp) queries[i]
  simp only [List.map_cons, List.map_nil] at hm
  funext c
  refine (evaluateBulk_eq _ _ hm c).trans ((oneByOne_map _ _ _ c).trans ?_)
  congr 1
  funext a
  exact callSimulate_eq I a.1 a.2.1 (some a.2.2.1) (some a.2.2.2.1) (some a.2.2.2.2)

/-- C104: `logpdf_heterogeneous_bulk` likewise. -/
theorem C104_logpdf_bulk (queries : List (List (RowId × Dict Var Val × Dict Var Val × Dict Var Val)))
    (multiprocess : Bool) (cs : List (S × Rng)) (hl : queries.length = cs.length) (out : List (List Fl)) :
    (Ensemble.logpdfHeterogeneousBulk I (some (queries.map fun l => l.map (·.1)))
        (some (queries.map fun l => l.map (·.2.1))) (some (queries.map fun l => l.map (·.2.2.1)))
        (some (queries.map fun l => l.map (·.2.2.2))) multiprocess cs).1 = .ok out ↔
      List.Forall₂ (fun qc y => (oneByOne (fun k : _ × _ × _ × _ =>
        I.logpdf k.1 k.2.1 k.2.2.1 k.2.2.2) qc.1 qc.2).1 = .ok y) (queries.zip cs) out := by
  unfold Ensemble.logpdfHeterogeneousBulk
  simp only [perChain_map _ hl, bind, Except.bind, pure, Except.pure]
  refine mapper_queries multiprocess (fun q => oneByOne (fun k : RowId × Dict Var Val × Dict Var Val × Dict Var Val =>
    I.logpdf k.1 k.2.1 k.2.2.1 k.2.2.2) q) queries (map_range hl _ _ fun i hi => ?_) cs out
  simp only [List.getD_eq_getElem?_getD, List.getElem?_map, List.getElem?_eq_getElem hi, Option.map_some,
    Option.getD_some, List.map_map, Function.comp_def]
  have hm := makeArgsList_map (A := RowId × Dict Var Val × Dict Var Val × Dict Var Val)
    [fun k => ofRow k.1, fun k => .dict k.2.1, fun k => .dict k.2.2.1, fun k => .dict k.2.2.2] (by simp) queries[i]
  simp only [List.map_cons, List.map_nil] at hm
  funext c
  refine (evaluateBulk_eq _ _ hm c).trans ((oneByOne_map _ _ _ c).trans ?_)
  congr 1
  funext a
  exact callLogpdf_eq I a.1 a.2.1 (some a.2.2.1) (some a.2.2.2)

/-- C104: a list of targets that does not have one entry per chain is rejected, and no chain is asked. -/
theorem C104_rejects (t : List (List Var)) (k i : Option (List (Dict Var Val))) (N : Option (List Nat))
    (multiprocess : Bool) (cs : List (S × Rng)) (hl : t.length ≠ cs.length) :
    Ensemble.simulateHeterogeneous I none (some t) k i N multiprocess cs = (.error .assertionError, cs) := by
  unfold Ensemble.simulateHeterogeneous
  simp [perChain, hl, bind, Except.bind]

/-- C104: `evaluate` returns, for each chain in order, what the function gives for the chain and the
arguments. -/
theorem C104_evaluate {A B : Type} (f : B → Py (S × Rng) A) (args : B) (multiprocess : Bool) (cs : List (S × Rng))
    (out : List A) :
    (evaluateAll f args multiprocess cs).1 = .ok out ↔ List.Forall₂ (fun c a => (f args c).1 = .ok a) cs out :=
  toAll_fst _ _ _ _

end

/-! ## Concrete ensembles -/

/-- A row is given to the ensemble of two columns; then it is asked about the columns and about the row. -/
example : ∃ cs g' cs', Ensemble.init Concrete.outside [1, 2] [] [⟨"normal", none⟩, ⟨"categorical", some 3⟩] 2 [] []
      Concrete.gseq = (.ok cs, g') ∧
    (∀ k ∈ [Request.observe (some 0) [(1, .num 3)] none false], k.Proper [1, 2]) ∧
    Life [.observe (some 0) [(1, .num 3)] none false] cs cs' ∧
    ¬ (ledger [.observe (some 0) [(1, .num 3)] none false]).rows none ∧
    (ledger [.observe (some 0) [(1, .num 3)] none false]).cells (some 0) 1 ≠ none ∧
    LegalMiQuery [1, 2] [1] [2] (Dict.keys ((none : Option (Dict Var Val)).getD [])) [] ∧
    ¬ LegalMiQuery [1, 2] [1] [1, 2] [] [] ∧
    (∃ m1 m2 : ℝ × ℝ, (Ensemble.mutualInformation (cgpmI 3) [1] [2] none none none none true cs').1 =
      .ok [(.fin m1.1, .fin m1.2), (.fin m2.1, .fin m2.2)]) ∧
    ∃ b1 b2, (getSameRow 1 (some 0) (some 0) false cs').1 = .ok [b1, b2] := by
  obtain ⟨cs, g', h, hlen⟩ := pair_made
  have hp : ∀ k ∈ [Request.observe (some 0) [(1, .num 3)] none false], k.Proper [1, 2] := by
    intro k hk
    rw [List.mem_singleton.1 hk]
    simp [Request.Proper, Dict.keys]
  obtain ⟨cs', h1⟩ := (C99_observe _ Concrete.outside_sane _ _ Concrete.pair_types (by simp) 2 (by simp) _ _ _ _ _ _ h []
    (by simp) (.nil cs) (some 0) [(1, .num 3)] (by simp [Dict.keys]) (by simp [Dict.keys]) none false).2 (by
      intro v y hy
      rw [Dict.get?_cons] at hy
      split_ifs at hy with e1 <;> cases hy
      subst e1; exact ⟨rfl, by simp [ValueOf]⟩)
  have hlife : Life [.observe (some 0) [(1, .num 3)] none false] cs cs' := .cons h1 (.nil _)
  have hr : ¬ (ledger [.observe (some 0) [(1, .num 3)] none false]).rows none := by
    simp [ledger, Request.enter, Ledger.observe, Ledger.empty]
  have hcell : (ledger [.observe (some 0) [(1, .num 3)] none false]).cells (some 0) 1 ≠ none := by
    simp [ledger, Request.enter, Ledger.observe, Ledger.empty, Dict.get?_cons]
  have hq : LegalMiQuery [1, 2] [1] [2] (Dict.keys ((none : Option (Dict Var Val)).getD [])) [] := by
    refine ⟨by simp, ?_, ?_, ?_, .inr ?_⟩ <;> simp [Spec.Apart, Dict.keys]
  have hlen' : cs'.length = 2 := (life_chains Concrete.outside_sane Concrete.pair_types (by simp) h hp hlife).2.1
  refine ⟨cs, g', cs', h, hp, hlife, hr, hcell, hq, fun hq => ?_, ?_, ?_⟩
  · rcases hq.tt with h | h
    · have := h 2; simp at this
    · have := h 1; simp at this
  · obtain ⟨ms, k1, k2, -⟩ := C102_mutual_information _ Concrete.outside_sane _ _ Concrete.pair_types (by simp) 2 _ _ _ _ _ _
      h _ hp hlife hr [1] [2] none (by simp) (by simp) (by simp) (by simp) (by simp [Dict.keys]) hq (by simp) none none true
    rcases ms with _ | ⟨m1, _ | ⟨m2, _ | ⟨m3, ms⟩⟩⟩ <;> simp only [List.length_cons, List.length_nil] at k1 <;>
      first | omega | skip
    exact ⟨m1, m2, k2⟩
  · obtain ⟨bs, k1, k2⟩ := C103_row _ Concrete.outside_sane _ _ Concrete.pair_types (by simp) 2 _ _ _ _ _ _ h _ hp hlife 1
      (by simp) (some 0) (some 0) hcell hcell false
    have k3 := k2.length_eq.symm.trans hlen'
    rcases bs with _ | ⟨b1, _ | ⟨b2, _ | ⟨b3, bs⟩⟩⟩ <;> simp only [List.length_cons, List.length_nil] at k3 <;>
      first | omega | skip
    exact ⟨b1, b2, k1⟩

/-- The ensemble of two columns is saved and loaded, and the loaded chains get one query each. -/
example : ∃ cs g' cs' rng', Ensemble.init Concrete.outside [1, 2] [] [⟨"normal", none⟩, ⟨"categorical", some 3⟩] 2 [] []
      Concrete.gseq = (.ok cs, g') ∧
    fromMetadata Concrete.outside (toMetadata [1, 2] [] [⟨"normal", none⟩, ⟨"categorical", some 3⟩] 2 [] [] cs)
      Concrete.gseq = (.ok cs', rng') ∧
    [((5 : Int), [(1 : Var)], ([] : Dict Var Val), ([] : Dict Var Val), 1), (7, [2], [], [], 4)].length = cs'.length := by
  obtain ⟨cs, g', h, -⟩ := pair_made
  obtain ⟨new, rng', hn, -⟩ := pair_made
  obtain ⟨cs', h1, -⟩ := C105_loads _ Concrete.outside_sane _ _ Concrete.pair_types (by simp) 2 _ _ _ _ _ _ h [] (by simp)
    (.nil cs) _ _ _ _ hn
  exact ⟨cs, g', cs', rng', h, h1, ((C105_same_answers _ Concrete.outside_sane _ _ Concrete.pair_types (by simp) 2 _ _ _ _ _
    _ h [] (by simp) (.nil cs) _ _ _ _ h1).1).symm⟩

/-- Libraries that put every column in a view of its own. -/
noncomputable def apartOutside : Outside where
  gamma _ := 1
  prng _ := Concrete.gseq
  crpConstrained N _ _ _ g := (.ok ((List.range N).map Int.ofNat), g)
  unique l := l.dedup

theorem apart_sane : SaneOutside apartOutside where
  gamma _ := one_pos
  crp N alpha Cd Ci g l g' h := by cases h; simp
  unique l := ⟨l.nodup_dedup, fun a => List.mem_dedup⟩

/-- Columns that are declared independent: after row 0 has a value in the first, asking about row 0 in the
second raises KeyError. -/
example : ∃ cs g' cs', Ensemble.init apartOutside [1, 2] [] [⟨"normal", none⟩, ⟨"categorical", some 3⟩] 2 [] [[0, 1]]
      Concrete.gseq = (.ok cs, g') ∧
    Ensemble.observe (cgpmI 3) (some 0) [(1, .num 3)] none false cs = (.ok (), cs') ∧
    (getSameRow 2 (some 0) (some 0) false cs').1 = .error .keyError := by
  obtain ⟨cs, g', h, hlen⟩ := C98_returns_constrained apartOutside apart_sane [1, 2] _ Concrete.pair_types (by simp) rfl 2
    Concrete.gseq [] [[0, 1]] (by simp) fun _ _ => ⟨_, _, rfl, Concrete.later_apart 1 (by omega)⟩
  obtain ⟨cs', h1⟩ := (C99_observe _ apart_sane _ _ Concrete.pair_types (by simp) 2 (by simp) _ _ _ _ _ _ h []
    (by simp) (.nil cs) (some 0) [(1, .num 3)] (by simp [Dict.keys]) (by simp [Dict.keys]) none false).2 (by
      intro v y hv
      rw [Dict.get?_cons] at hv
      split_ifs at hv with e
      · subst e
        cases hv
        refine ⟨rfl, fun d hd => ?_⟩
        simp only [List.zip_cons_cons, List.mem_cons, Prod.mk.injEq] at hd
        rcases hd with ⟨-, rfl⟩ | ⟨hd, -⟩ | hd
        · simp [ValueOf]
        · exact absurd hd (by decide)
        · simp at hd
      · cases hv)
  refine ⟨cs, g', cs', h, h1, ?_⟩
  refine C103_violated _ apart_sane _ _ Concrete.pair_types (by simp) 2 _ _ _ _ _ _ h [] (by simp) (.nil cs) (by simp)
    (some 0) (fun h => h) _ (by simp [Dict.keys]) _ _ _ h1 2 (by simp) (fun c hc x e a ha => ?_) _ _
  obtain ⟨-, -, hf⟩ := init_run.1 h
  obtain ⟨n, -, hn⟩ := forall₂_exists_mem hf hc
  obtain ⟨x', hx, e'⟩ := makeChain_ok.1 hn
  have := whole_inj (e.symm.trans e')
  subst this
  obtain ⟨l, g1, h2, -, h3⟩ := C98_together apartOutside apart_sane [1, 2] _ Concrete.pair_types [] [[0, 1]] (by simp)
    _ _ _ hx
  cases h2
  simp only [Dict.keys, List.map_cons, List.map_nil, List.mem_singleton] at ha
  subst ha
  intro ht
  have := (h3 0 1 (by simp) (by simp)).1 ht
  simp at this

/-- Libraries for which the random state of seed 11 draws the number 11. -/
noncomputable def fickle : Outside where
  gamma _ := 1
  prng n := if n = 10 then fun k => Concrete.gseq (k + 5) else Concrete.gseq
  crpConstrained N _ _ _ g := (.ok (List.replicate N 0), g)
  unique l := l.dedup

theorem fickle_sane : SaneOutside fickle where
  gamma _ := one_pos
  crp N alpha Cd Ci g l g' h := by cases h; simp
  unique l := ⟨l.nodup_dedup, fun a => List.mem_dedup⟩

theorem fickle_types : ∀ d ∈ [(⟨"normal", none⟩ : Dist)], ValidType d := by
  intro d hd
  rw [List.mem_singleton] at hd
  subst hd
  exact .inr (.inl rfl)

theorem drawn_first : (drawnInt Concrete.gseq 0).toNat = 10 := by
  rw [Concrete.gseq_drawn (by omega)]; rfl

theorem fickle_clash (x : Crosscat) (g' : Rng) :
    makeRandomCrosscat fickle [11] [⟨"normal", none⟩] [[0]] [] Concrete.gseq ≠ (.ok x, g') := by
  intro h
  obtain ⟨q, k1, k2, -⟩ := crosscat_ok fickle_sane h
  have hcol := made_columns fickle_types k1 k2
  have hnd := made_nodup k2
  unfold makeRandomCrosscat at h
  obtain ⟨alpha, g1, h1, h⟩ := run_bind h
  cases h1
  obtain ⟨q, g2, h2, h⟩ := run_bind h
  cases h2
  obtain ⟨vs, g3, h3, h⟩ := run_bind h
  rcases h4 : Product.init (cgpmI 2) vs with e | x'
  · rw [h4] at h; cases h
  rw [h4] at h
  cases h
  obtain ⟨h5, -⟩ := init_ok h4
  subst h5
  have hq : Cpp.partitionToBlocks (fickle.unique (List.replicate [(11 : Int)].length 0)) (List.replicate [(11 : Int)].length 0) = [[0]] := rfl
  rw [hq, Py.mapL] at h3
  obtain ⟨v, g4, h6, h3⟩ := run_bind h3
  obtain ⟨vs', g5, h7, h3⟩ := run_bind h3
  cases h3
  obtain ⟨ps, rfl, -⟩ := makeBlock_ok h6
  have hz : drawnVar Concrete.gseq.next.2 = (11 : Int) := by
    rw [drawnVar_eq]
    change drawnInt Concrete.gseq 1 = 11
    rw [Concrete.gseq_drawn (by omega)]
    rfl
  have h11 : (11 : Var) ∈ clusterVars ⟨freshView (drawnVar Concrete.gseq.next.2) ps :: vs'⟩ := by
    rw [hz]
    exact List.mem_cons_self
  exact (List.nodup_append.1 hnd).2.2 11 h11 11 (hcol.mem_iff.2 (by simp)) rfl

/-- Loading does not always return: an ensemble of one column is made and saved, and loading it raises, because
the ensemble that is made and thrown away draws the number of the column for its cluster variable. -/
theorem C105_load_raises : ∃ cs g' e, Ensemble.init fickle [11] [] [⟨"normal", none⟩] 1 [[0]] [] Concrete.gseq =
      (.ok cs, g') ∧
    (fromMetadata fickle (toMetadata [11] [] [⟨"normal", none⟩] 1 [[0]] [] cs) g').1 = .error e := by
  obtain ⟨cs, g', h, -⟩ := C98_returns_constrained fickle fickle_sane [11] _ fickle_types (by simp) rfl 1
    Concrete.gseq [[0]] [] (by simp) fun n hn => by
      obtain rfl : n = 0 := by omega
      refine ⟨_, _, rfl, ?_⟩
      rw [drawn_first]
      have hd : drawnInt (fun k => Concrete.gseq (k + 1 + 5)) 0 = (16 : Int) := by
        change drawnInt Concrete.gseq 6 = _
        rw [Concrete.gseq_drawn (by omega)]; rfl
      refine ⟨fun m hm hmem => ?_, fun m hm k hk => ?_⟩
      · have : m = 0 := by simp at hm; omega
        subst this
        have hmem : drawnInt (fun k => Concrete.gseq (k + 1 + 5)) 0 ∈ [(11 : Int)] := hmem
        rw [hd] at hmem
        simp at hmem
      · simp at hm; omega
  have hg := (init_run.1 h).2.1
  subst hg
  rcases h1 : Ensemble.init fickle [11] [] [⟨"normal", none⟩] 1 [[0]] [] (fun k => Concrete.gseq (k + 1)) with ⟨e | new, g2⟩
  · refine ⟨cs, _, e, h, ?_⟩
    unfold fromMetadata
    rw [Py.bind_apply]
    unfold toMetadata
    dsimp only
    rw [h1]
  · exfalso
    obtain ⟨-, -, hf⟩ := init_run.1 h1
    cases hf with
    | cons h2 _ =>
      obtain ⟨x, h3, -⟩ := makeChain_ok.1 h2
      have h11 : (drawnInt (fun k => Concrete.gseq (k + 1)) 0).toNat = 11 := by
        change (drawnInt Concrete.gseq 1).toNat = 11
        rw [Concrete.gseq_drawn (by omega)]; rfl
      rw [h11] at h3
      exact fickle_clash x _ h3

end Cgpm2.Props
