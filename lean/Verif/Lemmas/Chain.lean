import Verif.Spec.Chain
import Verif.Lemmas.BuiltLaws
import Verif.Lemmas.FlSum
import Verif.Lemmas.FlProb
import Verif.Lemmas.Samples

/-! Chains: queries without required inputs. -/

namespace Cgpm2
open Spec
variable {S : Type}

/-- `E`: the two objects answer `logpdf` in the same way, without random numbers, and keep doing so. -/
structure Quiet (I : Iface S) (E : S → S → Prop) : Prop where
  outputs : ∀ s s', E s s' → I.outputs s' = I.outputs s
  inputs : ∀ s s', E s s' → I.inputs s' = I.inputs s
  logpdf : ∀ s s', E s s' → ∀ r t c i g g',
    (I.logpdf r t c i (s', g')).1 = (I.logpdf r t c i (s, g)).1 ∧
    E s (I.logpdf r t c i (s', g')).2.1 ∧ (I.logpdf r t c i (s', g')).2.2 = g'
  simulate : ∀ s s', E s s' → ∀ r t c i N g,
    (I.simulate r t c i N (s', g)).1 = (I.simulate r t c i N (s, g)).1 ∧
    E s (I.simulate r t c i N (s', g)).2.1 ∧
    (I.simulate r t c i N (s', g)).2.2 = (I.simulate r t c i N (s, g)).2.2

/-- Members that answer every call in the same way. -/
inductive MemberE : Member → Member → Prop
  | tower {n : Nat} {c c' : Cgpm n} (h : (cgpmSem n).E c c') : MemberE (.tower n c) (.tower n c')
  | linreg (m : LinReg) : MemberE (.linreg m) (.linreg m)
  | forest (m : Forest) : MemberE (.forest m) (.forest m)

theorem MemberE.refl {b : Member} (h : MemberOk b) : MemberE b b := by
  cases b with
  | tower n c => exact .tower ((cgpmLaws n).refl c (built_inv h))
  | linreg m => exact .linreg m
  | forest m => exact .forest m

theorem memberQuiet : Quiet memberI MemberE where
  outputs s s' h := by
    cases h with
    | @tower n c c' h => exact ((cgpmLaws n).outputs_E h).symm
    | linreg m => rfl
    | forest m => rfl
  inputs s s' h := by
    cases h with
    | @tower n c c' h => exact ((cgpmLaws n).inputs_E h).symm
    | linreg m => rfl
    | forest m => rfl
  logpdf s s' h r t c i g g' := by
    cases h with
    | @tower n s s' h =>
      have L := cgpmLaws n
      obtain ⟨h1, h2, h3⟩ := L.logpdf r t c i s s' g' h
      obtain ⟨n1, n2, n3⟩ := L.logpdf_noDraw r t c i s g g'
      obtain ⟨m1, m2, m3⟩ := L.logpdf_noDraw r t c i s' g' g'
      refine ⟨?_, ?_, ?_⟩
      · change ((cgpmI n).logpdf r t c i (s', g')).1 = ((cgpmI n).logpdf r t c i (s, g)).1
        rw [← h1, n1]
      · exact .tower (L.trans _ _ _ h (L.E_logpdf (L.inv' h) r t c i g'))
      · exact m3
    | linreg m => exact ⟨rfl, .linreg m, rfl⟩
    | forest m => exact ⟨rfl, .forest m, rfl⟩
  simulate s s' h r t c i N g := by
    cases h with
    | @tower n s s' h =>
      have L := cgpmLaws n
      obtain ⟨h1, h2, h3⟩ := L.simulate r t c i N s s' g h
      refine ⟨h1.symm, ?_, h3.symm⟩
      exact .tower (L.trans _ _ _ h (L.E_simulate (L.inv' h) r t c i N g))
    | linreg m => exact ⟨rfl, .linreg m, rfl⟩
    | forest m => exact ⟨rfl, .forest m, rfl⟩

namespace Chain
variable {I : Iface S} {E : S → S → Prop}

/-- A member asked for its part of a row only. -/
theorem invoke_row (Q : Quiet I E) {s s' : S} (h : E s s') {r : RowId} {row ins : Dict Var Val}
    (hs : (∃ v ∈ I.outputs s, v ∈ Dict.keys row) → ∀ i ∈ I.inputs s, i ∈ Dict.keys row ∨ i ∈ Dict.keys ins)
    (g g' : Rng) :
    (∀ x, memberLogpdf I r row ins g s = .ok x →
      ∃ s'', invokeCgpm I r [] row ins (s', g') = (.ok ([], x), (s'', g')) ∧ E s s'') ∧
    (∀ e, memberLogpdf I r row ins g s = .error e →
      ∃ s'', invokeCgpm I r [] row ins (s', g') = (.error e, (s'', g')) ∧ E s s'') := by
  have e0 : invokeCgpm I r [] row ins (s', g') =
      (do
        checkInputs I s' [] row ins
        let weight ← memberWeight I s' r row ins
        let sample ← memberSample I s' r [] row ins
        pure (sample, weight) : Py (S × Rng) (Dict Var Val × Fl)) (s', g') := rfl
  have hsam : memberSample I s' r [] row ins = (pure [] : Py (S × Rng) _) := by
    unfold memberSample getIntersectionL; simp
  have hw : memberLogpdf I r row ins g s = if getIntersection (I.outputs s) row = [] then .ok (.fin 0)
      else (I.logpdf r (getIntersection (I.outputs s) row) [] (cgpmInputs I s row ins) (s, g)).1 := rfl
  have ho := Q.outputs s s' h
  have hi := Q.inputs s s' h
  rw [e0, hsam, hw]
  by_cases hne : getIntersection (I.outputs s) row = []
  · have hc : checkInputs I s' [] row ins = pure () := by
      unfold checkInputs
      rw [if_neg]
      rw [ho]
      simp [hne, getIntersectionL]
    have hm : memberWeight I s' r row ins = pure 0 := by
      unfold memberWeight; rw [ho, if_neg (by simpa using hne)]
    rw [hc, hm, if_pos hne]
    constructor
    · intro x hx; cases hx; exact ⟨s', rfl, h⟩
    · intro e he; exact nomatch he
  · have hk : ∃ v ∈ I.outputs s, v ∈ Dict.keys row := by
      obtain ⟨kv, hkv⟩ := List.exists_mem_of_ne_nil _ hne
      obtain ⟨h1, h2⟩ := List.mem_filter.1 hkv
      exact ⟨kv.1, by simpa using h2, List.mem_map.2 ⟨kv, h1, rfl⟩⟩
    have hall : ∀ i ∈ I.inputs s', Dict.has (cgpmInputs I s' row ins) i = true := by
      intro i hi'
      rw [hi] at hi'
      rw [Dict.has_iff]
      unfold cgpmInputs merged
      rw [mem_keys_update, mem_keys_update]
      have aux : ∀ d : Dict Var Val, i ∈ Dict.keys d → i ∈ Dict.keys (getIntersection (I.inputs s') d) := by
        intro d hd
        obtain ⟨kv, hkv, rfl⟩ := List.mem_map.1 hd
        refine List.mem_map.2 ⟨kv, List.mem_filter.2 ⟨hkv, ?_⟩, rfl⟩
        rw [hi]; exact decide_eq_true hi'
      rcases hs hk i hi' with hr | hr
      · exact Or.inr (aux _ hr)
      · exact Or.inl (Or.inr (aux _ hr))
    have hc : checkInputs I s' [] row ins (s', g') = (.ok (), (s', g')) := by
      unfold checkInputs
      rw [ho, if_pos (Or.inl hne), Py.assert_apply, if_pos hall]
    have hm : memberWeight I s' r row ins = I.logpdf r (getIntersection (I.outputs s) row) []
        (cgpmInputs I s row ins) := by
      unfold memberWeight cgpmInputs; rw [ho, hi, if_pos hne]
    rw [hm, if_neg hne, Py.bind_apply, hc]
    dsimp only
    rw [Py.bind_apply]
    obtain ⟨l1, l2, l3⟩ := Q.logpdf s s' h r (getIntersection (I.outputs s) row) [] (cgpmInputs I s row ins) g g'
    rw [← l1]
    rcases hl : I.logpdf r (getIntersection (I.outputs s) row) [] (cgpmInputs I s row ins) (s', g') with
      ⟨e | x, s'', g''⟩
    · rw [hl] at l2 l3
      cases l3
      refine ⟨fun x hx => (nomatch hx), fun e' he => ?_⟩
      cases he
      exact ⟨s'', rfl, l2⟩
    · rw [hl] at l2 l3
      cases l3
      refine ⟨fun x' hx => ?_, fun e' he => nomatch he⟩
      cases hx
      exact ⟨s'', rfl, l2⟩

/-- `memberLogpdf` of the member at an index. -/
noncomputable def memberAt (I : Iface S) (r : RowId) (row ins : Dict Var Val) (g : Rng) (cs : List S)
    (k : Nat) : Except Err Fl :=
  match cs[k]? with
  | some b => memberLogpdf I r row ins g b
  | none => .error .indexError

/-- The loop over the members for a row that needs no samples. -/
theorem levels_row (Q : Quiet I E) {cs : List S} {r : RowId} {row ins : Dict Var Val}
    (hs : ∀ b ∈ cs, (∃ v ∈ I.outputs b, v ∈ Dict.keys row) → ∀ i ∈ I.inputs b,
      i ∈ Dict.keys row ∨ i ∈ Dict.keys ins) (g : Rng) (topo : List Nat) (ht : ∀ k ∈ topo, k < cs.length)
    (w : Fl) {cs' : List S} (h : List.Forall₂ E cs cs') (g' : Rng) :
    (∀ xs, topo.mapM (memberAt I r row ins g cs) = .ok xs →
      ∃ cs'', levels I r [] ins topo row w (cs', g') = (.ok (row, w + xs.sum), (cs'', g')) ∧
        List.Forall₂ E cs cs'') ∧
    (∀ e, topo.mapM (memberAt I r row ins g cs) = .error e →
      ∃ cs'', levels I r [] ins topo row w (cs', g') = (.error e, (cs'', g')) ∧
        List.Forall₂ E cs cs'') := by
  induction topo generalizing w cs' with
  | nil =>
    refine ⟨fun xs hx => ?_, fun e he => nomatch he⟩
    cases hx
    exact ⟨cs', by simp [levels, Py.pure_apply], h⟩
  | cons k topo ih =>
    have hk : k < cs.length := ht k (by simp)
    have hk' : k < cs'.length := by rw [← h.length_eq]; exact hk
    have hE : E cs[k] cs'[k] := h.get hk hk'
    have key := invoke_row Q hE (r := r) (row := row) (ins := ins)
      (hs _ (List.getElem_mem hk)) g g'
    have hset : ∀ s'', E cs[k] s'' → List.Forall₂ E cs (cs'.set k s'') := by
      intro s'' hE'
      refine List.forall₂_iff_get.2 ⟨by simp [h.length_eq], fun i h1 h2 => ?_⟩
      simp only [List.get_eq_getElem, List.getElem_set]
      split
      · next e => subst e; exact hE'
      · exact h.get h1 (by simpa using h2)
    have hbody : memberAt I r row ins g cs k = memberLogpdf I r row ins g cs[k] := by
      unfold memberAt; rw [List.getElem?_eq_getElem hk]
    rw [List.mapM_cons, hbody]
    have hat : ∀ (st : Except Err (Dict Var Val × Fl) × (S × Rng)),
        invokeCgpm I r [] row ins (cs'[k], g') = st →
        Py.atIndex k (invokeCgpm I r [] row ins) (cs', g') = (st.1, (cs'.set k st.2.1, st.2.2)) := by
      intro st hst
      unfold Py.atIndex
      dsimp only
      rw [List.getElem?_eq_getElem hk']
      dsimp only
      rw [hst]
    cases hm : memberLogpdf I r row ins g cs[k] with
    | error e =>
      refine ⟨fun xs hx => (nomatch hx), fun e' he => ?_⟩
      obtain ⟨s'', e1, e2⟩ := key.2 e hm
      cases he
      refine ⟨cs'.set k s'', ?_, hset _ e2⟩
      unfold levels
      rw [Py.bind_apply, hat _ e1]
    | ok x =>
      obtain ⟨s'', e1, e2⟩ := key.1 x hm
      have ih' := ih (fun j hj => ht j (List.mem_cons_of_mem _ hj)) (w + x) (hset _ e2)
      have hlev : levels I r [] ins (k :: topo) row w (cs', g') =
          levels I r [] ins topo row (w + x) (cs'.set k s'', g') := by
        conv_lhs => unfold levels
        rw [Py.bind_apply, hat _ e1]
        rfl
      rw [hlev]
      cases hr : topo.mapM (memberAt I r row ins g cs) with
      | error e =>
        refine ⟨fun xs hx => (nomatch hx), fun e' he => ?_⟩
        cases he
        exact ih'.2 e hr
      | ok ys =>
        refine ⟨fun xs hx => ?_, fun e' he => nomatch he⟩
        cases hx
        obtain ⟨cs'', h1, h2⟩ := ih'.1 ys hr
        refine ⟨cs'', ?_, h2⟩
        rw [h1, List.sum_cons, add_assoc]

/-- A state of the chain that answers in the same way. -/
structure Same (E : S → S → Prop) (ch ch' : Chain S) : Prop where
  cgpms : List.Forall₂ E ch.cgpms ch'.cgpms
  accuracy : ch'.accuracy = ch.accuracy
  net : ch'.net = ch.net

theorem mapM_error {A B : Type} (f : A → Except Err B) (l : List A) :
    (∃ r, l.mapM f = .ok r) ∨ ∃ e, l.mapM f = .error e ∧ ∃ a ∈ l, f a = .error e := by
  induction l with
  | nil => exact Or.inl ⟨[], rfl⟩
  | cons a l ih =>
    rw [List.mapM_cons]
    rcases h : f a with e | b
    · exact Or.inr ⟨e, rfl, a, by simp, h⟩
    · rcases ih with ⟨r, hr⟩ | ⟨e, he, a', ha', h'⟩
      · rw [hr]; exact Or.inl ⟨_, rfl⟩
      · rw [he]; exact Or.inr ⟨e, rfl, a', by simp [ha'], h'⟩

theorem memberAt_of_lt {cs : List S} {k : Nat} (hk : k < cs.length) (r : RowId)
    (row ins : Dict Var Val) (g : Rng) : memberAt I r row ins g cs k = memberLogpdf I r row ins g cs[k] := by
  unfold memberAt; rw [List.getElem?_eq_getElem hk]

/-- Going through the members in topological order adds up the same numbers. -/
theorem topo_sum {cs : List S} {topo : List Nat} (ht : topo.Perm (List.range cs.length)) {r : RowId}
    {row ins : Dict Var Val} {g : Rng} {xs : List Fl} (hx : cs.mapM (memberLogpdf I r row ins g) = .ok xs) :
    ∃ ys, topo.mapM (memberAt I r row ins g cs) = .ok ys ∧ ys.sum = xs.sum := by
  have hf := (mapM_ok_iff _ _ _).1 hx
  have hl := hf.length_eq
  refine ⟨topo.map fun k => xs[k]?.getD 0, mapM_ok _ _ _ fun k hk => ?_, ?_⟩
  · have hk' : k < cs.length := by simpa using (ht.mem_iff.1 hk)
    rw [memberAt_of_lt hk', List.getElem?_eq_getElem (hl ▸ hk')]
    exact hf.get hk' (hl ▸ hk')
  · rw [(ht.map _).sum_eq]
    congr 1
    refine List.ext_getElem (by simp [hl]) fun i h1 h2 => ?_
    simp [List.getElem?_eq_getElem h2]

theorem weightedSample_row (Q : Quiet I E) {ch : Chain S} {r : RowId} {row ins : Dict Var Val}
    (hs : ∀ b ∈ ch.cgpms, (∃ v ∈ I.outputs b, v ∈ Dict.keys row) → ∀ i ∈ I.inputs b,
      i ∈ Dict.keys row ∨ i ∈ Dict.keys ins) (ht : ch.net.topo.Perm (List.range ch.cgpms.length))
    (hr : ch.net.required [] (Dict.keys row) = []) (g : Rng) {ch' : Chain S} (h : Same E ch ch') (g' : Rng) :
    (∀ xs, ch.cgpms.mapM (memberLogpdf I r row ins g) = .ok xs →
      ∃ ch'', weightedSample I r [] row ins (ch', g') = (.ok (row, xs.sum), (ch'', g')) ∧ Same E ch ch'') ∧
    (∀ b ∈ ch.cgpms, ∀ e, memberLogpdf I r row ins g b = .error e →
      ∃ e' ch'', weightedSample I r [] row ins (ch', g') = (.error e', (ch'', g')) ∧
        ∃ b' ∈ ch.cgpms, memberLogpdf I r row ins g b' = .error e') := by
  have hlt : ∀ k ∈ ch.net.topo, k < ch.cgpms.length := fun k hk => by simpa using ht.mem_iff.1 hk
  have key := levels_row Q (r := r) hs g ch.net.topo hlt 0 h.cgpms g'
  have e0 : weightedSample I r [] row ins (ch', g') =
      (Py.onAttr Chain.cgpms (fun c l => { c with cgpms := l }) (levels I r [] ins ch.net.topo row 0) >>=
        fun sw => (do
          Py.assert ((∀ k ∈ Dict.keys sw.1, k ∈ Dict.keys row ++ []) ∧
            ∀ k ∈ Dict.keys row ++ [], k ∈ Dict.keys sw.1)
          pure (sw.1, sw.2) : Py (Chain S × Rng) (Dict Var Val × Fl))) (ch', g') := by
    unfold weightedSample
    rw [Py.bind_apply, Py.get_apply]
    dsimp only
    rw [h.net, hr]
    rfl
  rw [e0, Py.bind_apply]
  refine ⟨fun xs hx => ?_, fun b hb e he => ?_⟩
  · obtain ⟨ys, h1, h2⟩ := topo_sum ht hx
    obtain ⟨cs'', h3, h4⟩ := key.1 ys h1
    refine ⟨{ ch' with cgpms := cs'' }, ?_, ⟨h4, h.accuracy, h.net⟩⟩
    unfold Py.onAttr
    dsimp only
    rw [h3]
    dsimp only
    rw [Py.bind_apply, Py.assert_apply, if_pos (by simp)]
    dsimp only
    rw [Py.pure_apply, zero_add, h2]
  · have hbad : ∃ e', ch.net.topo.mapM (memberAt I r row ins g ch.cgpms) = .error e' ∧
        ∃ b' ∈ ch.cgpms, memberLogpdf I r row ins g b' = .error e' := by
      rcases mapM_error (memberAt I r row ins g ch.cgpms) ch.net.topo with ⟨ys, hy⟩ | ⟨e', h1, k, hk, h2⟩
      · exfalso
        obtain ⟨k, hk, rfl⟩ := List.getElem_of_mem hb
        have hk' : k ∈ ch.net.topo := ht.mem_iff.2 (by simpa using hk)
        obtain ⟨j, hj, rfl⟩ := List.getElem_of_mem hk'
        have hf := (mapM_ok_iff _ _ _).1 hy
        have := hf.get hj (hf.length_eq ▸ hj)
        rw [List.get_eq_getElem, memberAt_of_lt hk, he] at this
        cases this
      · rw [memberAt_of_lt (hlt k hk)] at h2
        exact ⟨e', h1, _, List.getElem_mem _, h2⟩
    obtain ⟨e', h1, hb'⟩ := hbad
    obtain ⟨cs'', h3, h4⟩ := key.2 e' h1
    refine ⟨e', { ch' with cgpms := cs'' }, ?_, hb'⟩
    unfold Py.onAttr
    dsimp only
    rw [h3]

theorem mapL_const {ch : Chain S} {A : Type} {m : Py (Chain S × Rng) A} {a : A} {g' : Rng}
    (hm : ∀ ch', Same E ch ch' → ∃ ch'', m (ch', g') = (.ok a, (ch'', g')) ∧ Same E ch ch'')
    {B : Type} (l : List B) {ch' : Chain S} (h : Same E ch ch') :
    ∃ ch'', Py.mapL (fun _ => m) l (ch', g') = (.ok (List.replicate l.length a), (ch'', g')) ∧
      Same E ch ch'' := by
  induction l generalizing ch' with
  | nil => exact ⟨ch', rfl, h⟩
  | cons b l ih =>
    obtain ⟨ch1, h1, h2⟩ := hm ch' h
    obtain ⟨ch2, h3, h4⟩ := ih h2
    refine ⟨ch2, ?_, h4⟩
    rw [Py.mapL, Py.bind_apply, h1]
    dsimp only
    rw [Py.bind_apply, h3]
    rfl

theorem weightedSamples_row (Q : Quiet I E) {ch : Chain S} {r : RowId} {row ins : Dict Var Val}
    (hs : ∀ b ∈ ch.cgpms, (∃ v ∈ I.outputs b, v ∈ Dict.keys row) → ∀ i ∈ I.inputs b,
      i ∈ Dict.keys row ∨ i ∈ Dict.keys ins) (ht : ch.net.topo.Perm (List.range ch.cgpms.length))
    (hr : ch.net.required [] (Dict.keys row) = []) (g : Rng) {ch' : Chain S} (h : Same E ch ch') (g' : Rng)
    {xs : List Fl} (hx : ch.cgpms.mapM (memberLogpdf I r row ins g) = .ok xs) :
    ∃ ch'', weightedSamples I r [] row ins (ch', g') =
      (.ok (List.replicate ch.accuracy (row, xs.sum)), (ch'', g')) ∧ Same E ch ch'' := by
  have := mapL_const (fun ch1 h1 => (weightedSample_row Q hs ht hr g h1 g').1 xs hx)
    (List.range ch.accuracy) h
  rw [List.length_range] at this
  unfold weightedSamples
  rw [Py.bind_apply, Py.get_apply]
  dsimp only
  rw [h.accuracy]
  exact this

theorem logmeanexp_replicate {n : Nat} (hn : 0 < n) {x : Fl} (hx : x.IsLogP) :
    Fl.logmeanexp (List.replicate n x) = x := by
  unfold Fl.logmeanexp
  have hall : ∀ y ∈ List.replicate n x, y.IsLogP := fun y hy => by
    rw [(List.mem_replicate.1 hy).2]; exact hx
  have hn' : (0 : ℝ) < n := by exact_mod_cast hn
  rw [Fl.logsumexp_eq hall, List.map_replicate, List.sum_replicate, List.length_replicate, nsmul_eq_mul]
  cases x with
  | ninf => simp [Fl.exp, Fl.ofProb]; rfl
  | fin a =>
    have : (n : ℝ) * Real.exp a ≠ 0 := by positivity
    simp only [Fl.exp, Fl.ofProb, this, if_false]
    change Fl.fin (Real.log _ + - Real.log n) = _
    rw [Real.log_mul hn'.ne' (Real.exp_pos a).ne', Real.log_exp]
    congr 1; ring
  | nan => exact hx.elim
  | pinf => exact hx.elim

theorem all_replicate {n : Nat} (hn : 0 < n) (x : Fl) : (List.replicate n x).all Fl.isInf = x.isInf := by
  cases n with
  | zero => omega
  | succ n => simp

/-- `Chain.logpdf` when the members' parts of both rows are known. -/
theorem logpdf_row (Q : Quiet I E) {ch : Chain S} (hE : ∀ b ∈ ch.cgpms, E b b) (ha : 0 < ch.accuracy)
    (ht : ch.net.topo.Perm (List.range ch.cgpms.length)) {r : RowId} {t c ins : Dict Var Val}
    (hs : ∀ row ∈ [merged t c, c], ∀ b ∈ ch.cgpms, (∃ v ∈ I.outputs b, v ∈ Dict.keys row) →
      ∀ i ∈ I.inputs b, i ∈ Dict.keys row ∨ i ∈ Dict.keys ins)
    (hr : ∀ row ∈ [merged t c, c], ch.net.required [] (Dict.keys row) = []) (g g' : Rng)
    {xs ys : List Fl} (hx : ch.cgpms.mapM (memberLogpdf I r (merged t c) ins g) = .ok xs)
    (hy : ch.cgpms.mapM (memberLogpdf I r c ins g) = .ok ys) (hxl : ∀ x ∈ xs, x.IsLogP)
    (hyl : ∀ y ∈ ys, y.IsLogP) :
    ∃ ch', logpdf I r t c ins (ch, g') =
      ((if c ≠ [] ∧ ys.sum.isInf = true then .error .valueError
        else .ok (xs.sum - if c = [] then 0 else ys.sum)), (ch', g')) ∧ Same E ch ch' := by
  have h0 : Same E ch ch := ⟨List.forall₂_same.2 hE, rfl, rfl⟩
  obtain ⟨ch1, e1, s1⟩ := weightedSamples_row Q (hs _ (by simp)) ht (hr _ (by simp)) g h0 g' hx
  have hxs := Fl.isLogP_sum hxl
  have hys := Fl.isLogP_sum hyl
  by_cases hc : c = []
  · refine ⟨ch1, ?_, s1⟩
    unfold logpdf
    rw [Py.bind_apply, e1]
    dsimp only
    unfold marginalWeights
    rw [if_neg (by simpa using hc), Py.bind_apply, Py.pure_apply]
    dsimp only
    rw [if_neg (by simp [Fl.isInf]), Py.pure_apply,
      List.map_replicate, logmeanexp_replicate ha hxs, if_neg (by simp [hc]), if_pos hc]
    rw [show ([Fl.fin 0] : List Fl) = List.replicate 1 (.fin 0) from rfl,
      logmeanexp_replicate one_pos (show (Fl.fin 0).IsLogP from trivial)]
    rfl
  · obtain ⟨ch2, e2, s2⟩ := weightedSamples_row Q (hs _ (by simp)) ht (hr _ (by simp)) g s1 g' hy
    refine ⟨ch2, ?_, s2⟩
    unfold logpdf
    rw [Py.bind_apply, e1]
    dsimp only
    unfold marginalWeights
    rw [if_pos hc, Py.bind_apply, Py.bind_apply, e2]
    dsimp only
    rw [Py.pure_apply]
    dsimp only
    simp only [List.map_replicate]
    rw [all_replicate ha, logmeanexp_replicate ha hxs, logmeanexp_replicate ha hys]
    by_cases hn : ys.sum.isInf = true
    · rw [if_pos hn, if_pos ⟨hc, hn⟩]; rfl
    · rw [if_neg hn, if_neg (fun h => hn h.2), if_neg hc]; rfl

/-- A member that raises makes the query raise. -/
theorem logpdf_raises (Q : Quiet I E) {ch : Chain S} (hE : ∀ b ∈ ch.cgpms, E b b) (ha : 0 < ch.accuracy)
    (ht : ch.net.topo.Perm (List.range ch.cgpms.length)) {r : RowId} {t c ins : Dict Var Val}
    (hs : ∀ b ∈ ch.cgpms, (∃ v ∈ I.outputs b, v ∈ Dict.keys (merged t c)) →
      ∀ i ∈ I.inputs b, i ∈ Dict.keys (merged t c) ∨ i ∈ Dict.keys ins)
    (hr : ch.net.required [] (Dict.keys (merged t c)) = []) (g g' : Rng)
    {b : S} (hb : b ∈ ch.cgpms) {e : Err} (he : memberLogpdf I r (merged t c) ins g b = .error e) :
    ∃ e' ch', logpdf I r t c ins (ch, g') = (.error e', (ch', g')) ∧
      ∃ b' ∈ ch.cgpms, memberLogpdf I r (merged t c) ins g b' = .error e' := by
  have h0 : Same E ch ch := ⟨List.forall₂_same.2 hE, rfl, rfl⟩
  obtain ⟨e', ch', h1, hb'⟩ := (weightedSample_row Q hs ht hr g h0 g').2 b hb e he
  refine ⟨e', ch', ?_, hb'⟩
  obtain ⟨n, hn⟩ := Nat.exists_eq_add_of_lt ha
  unfold logpdf weightedSamples
  rw [Py.bind_apply, Py.bind_apply, Py.get_apply]
  dsimp only
  rw [hn, List.range_succ_eq_map, Py.mapL, Py.bind_apply, h1]

/-- Nothing is required when every member with a variable in the row is supplied. -/
theorem required_nil {ch : Chain S} (hn : NetworkOk I ch) {row ins : Dict Var Val}
    (hs : Supplied I ch row ins) : ch.net.required [] (Dict.keys row) = [] := by
  refine List.eq_nil_iff_forall_not_mem.2 fun v hv => ?_
  obtain ⟨h1, h2, -, h4⟩ := (hn.required _ _ _).1 hv
  have key : ∀ v, Needed I ch.cgpms ([] ++ Dict.keys row) v → v ∈ Dict.keys row ∨ v ∉ Chain.outputs I ch := by
    intro v h
    induction h with
    | direct hb hv h hi =>
      rcases hs _ hb ⟨_, hv, by simpa using h⟩ _ hi with h | h
      · exact Or.inl h
      · exact Or.inr h.2
    | further hb hv _ hi ih =>
      rcases ih with ih | ih
      · rcases hs _ hb ⟨_, hv, ih⟩ _ hi with h | h
        · exact Or.inl h
        · exact Or.inr h.2
      · exact absurd (List.mem_flatMap.2 ⟨_, hb, hv⟩) ih
  rcases key v h1 with h | h
  · exact h4 h
  · exact h h2

theorem filter_set_of_not {p : Var → Bool} {d : Dict Var Val} {k : Var} {v : Val} (h : p k = false) :
    (Dict.set d k v).filter (fun kv => p kv.1) = d.filter (fun kv => p kv.1) := by
  induction d with
  | nil => simp [Dict.set, h]
  | cons kv d ih =>
    obtain ⟨a, b⟩ := kv
    unfold Dict.set
    split
    · next e =>
      subst e
      simp [h]
    · simp only [List.filter_cons, ih]

theorem only_update {X : List Var} {d s : Dict Var Val} (h : ∀ v ∈ Dict.keys s, v ∉ X) :
    only X (Dict.update d s) = only X d := by
  induction s generalizing d with
  | nil => rfl
  | cons kv s ih =>
    rw [Dict.update_cons, ih fun v hv => h v (by simp [Dict.keys] at hv ⊢; exact Or.inr hv)]
    exact filter_set_of_not (p := fun v => decide (v ∈ X)) (decide_eq_false (h kv.1 (by simp [Dict.keys])))

/-- One member, when nothing of it has been fixed. -/
theorem invoke_draw (Q : Quiet I E) {b b' : S} (h : E b b') {r : RowId} {T : List Var}
    {d ins : Dict Var Val} (hd : ∀ v ∈ Dict.keys d, v ∉ I.outputs b) {g g' : Rng} {s : Dict Var Val}
    {w : Fl} {b'' : S} (hi : invokeCgpm I r T d ins (b', g) = (.ok (s, w), (b'', g'))) :
    w = 0 ∧ E b b'' ∧
    (((∀ v ∈ T, v ∉ I.outputs b) ∧ s = [] ∧ g' = g) ∨
      ((∃ v ∈ T, v ∈ I.outputs b) ∧ ∃ b1, I.simulate r (T.filter fun v => decide (v ∈ I.outputs b)) []
        (merged (only (I.inputs b) ins) (only (I.inputs b) d)) none (b, g) = (.ok (.one s), (b1, g')))) := by
  have ho := Q.outputs _ _ h
  have hin := Q.inputs _ _ h
  have hg : getIntersection (I.outputs b') d = [] := by
    rw [ho]
    refine List.filter_eq_nil_iff.2 fun kv hkv => ?_
    simpa using hd kv.1 (List.mem_map.2 ⟨kv, hkv, rfl⟩)
  unfold invokeCgpm at hi
  rw [Py.bind_apply, Py.get_apply] at hi
  dsimp only at hi
  have hw : memberWeight I b' r d ins = pure 0 := by
    unfold memberWeight; rw [if_neg (by simpa using hg)]
  rw [hw] at hi
  rw [Py.bind_apply] at hi
  rcases hc : checkInputs I b' T d ins (b', g) with ⟨e | u, st⟩
  · rw [hc] at hi; cases hi
  have hst : st = (b', g) := by
    unfold checkInputs at hc
    split at hc
    · rw [Py.assert_apply] at hc
      split at hc <;> cases hc
      rfl
    · cases hc; rfl
  subst hst
  rw [hc] at hi
  dsimp only at hi
  rw [Py.bind_apply, Py.pure_apply] at hi
  dsimp only at hi
  rw [Py.bind_apply] at hi
  unfold memberSample at hi
  by_cases hT : getIntersectionL (I.outputs b') T = []
  · rw [if_neg (by simpa using hT), Py.pure_apply] at hi
    cases hi
    refine ⟨rfl, h, Or.inl ⟨fun v hv => ?_, rfl, rfl⟩⟩
    have := List.filter_eq_nil_iff.1 hT v hv
    rw [ho] at this
    simpa using this
  · rw [if_pos hT, Py.bind_apply, hg] at hi
    obtain ⟨q1, q2, q3⟩ := Q.simulate b b' h r (getIntersectionL (I.outputs b') T) []
      (cgpmInputs I b' d ins) none g
    rcases hs : I.simulate r (getIntersectionL (I.outputs b') T) [] (cgpmInputs I b' d ins) none (b', g)
      with ⟨e | out, b2, g2⟩
    · rw [hs] at hi; cases hi
    · rw [hs] at hi q1 q2 q3
      cases out with
      | many l => cases hi
      | one s' =>
        cases hi
        refine ⟨rfl, q2, Or.inr ⟨?_, (I.simulate r (getIntersectionL (I.outputs b') T) []
          (cgpmInputs I b' d ins) none (b, g)).2.1, ?_⟩⟩
        · obtain ⟨v, hv⟩ := List.exists_mem_of_ne_nil _ hT
          obtain ⟨h1, h2⟩ := List.mem_filter.1 hv
          rw [ho] at h2
          exact ⟨v, h1, by simpa using h2⟩
        · have e : I.simulate r (T.filter fun v => decide (v ∈ I.outputs b)) []
              (merged (only (I.inputs b) ins) (only (I.inputs b) d)) none (b, g) =
              I.simulate r (getIntersectionL (I.outputs b') T) [] (cgpmInputs I b' d ins) none (b, g) := by
            unfold getIntersectionL cgpmInputs getIntersection only
            rw [ho, hin]
          rw [e]
          dsimp only at q1 q3
          rw [q1, q3]

theorem filter_outputs (T X : List Var) : ∀ v ∈ T.filter (fun v => decide (v ∈ X)), v ∈ X := by
  intro v hv
  simpa using (List.mem_filter.1 hv).2

theorem inputs_only (X : List Var) (d e : Dict Var Val) : ∀ k ∈ Dict.keys (merged (only X d) (only X e)), k ∈ X := by
  have aux : ∀ d : Dict Var Val, ∀ k ∈ Dict.keys (only X d), k ∈ X := by
    intro d k hk
    obtain ⟨kv, hkv, rfl⟩ := List.mem_map.1 hk
    simpa using (List.mem_filter.1 hkv).2
  intro k hk
  unfold merged at hk
  rw [mem_keys_update, mem_keys_update] at hk
  rcases hk with (hk | hk) | hk
  · cases hk
  · exact aux d k hk
  · exact aux e k hk

/-- The loop over the members when nothing is fixed in advance. -/
theorem levels_sample (Q : Quiet I E) {cs : List S} {r : RowId}
    (hRT : ∀ b ∈ cs, ReturnsTargets I r b)
    {T : List Var} {ins : Dict Var Val} (hac : ∀ b ∈ cs, ∀ i ∈ I.inputs b, i ∉ I.outputs b)
    (hdis : ∀ (j k : Nat) (b c : S), j ≠ k → cs[j]? = some b → cs[k]? = some c → ∀ v ∈ I.outputs b, v ∉ I.outputs c)
    (topo : List Nat) (hlt : ∀ k ∈ topo, k < cs.length) (hnd : topo.Nodup)
    (hord : topo.Pairwise fun j k => ∀ b c, cs[j]? = some b → cs[k]? = some c →
      ∀ i ∈ I.inputs b, i ∉ I.outputs c) {d : Dict Var Val} {w : Fl} {cs' : List S} {g : Rng}
    (hd : ∀ k ∈ topo, ∀ b, cs[k]? = some b → ∀ v ∈ Dict.keys d, v ∉ I.outputs b)
    (h : List.Forall₂ E cs cs') {full : Dict Var Val} {w' : Fl} {cs'' : List S} {g' : Rng}
    (hl : levels I r T ins topo d w (cs', g) = (.ok (full, w'), (cs'', g'))) :
    w' = w ∧ List.Forall₂ E cs cs'' ∧
      (∀ v, (∀ k ∈ topo, ∀ b, cs[k]? = some b → v ∉ I.outputs b) → Dict.get? full v = Dict.get? d v) ∧
      (∀ X : List Var, (∀ k ∈ topo, ∀ b, cs[k]? = some b → ∀ v ∈ I.outputs b, v ∉ X) →
        only X full = only X d) ∧
      Ancestral I r T ins full (topo.filterMap (cs[·]?)) g g' := by
  induction topo generalizing d w cs' g with
  | nil =>
    cases hl
    exact ⟨rfl, h, fun _ _ => rfl, fun _ _ => rfl, .nil _⟩
  | cons k topo ih =>
    have hk : k < cs.length := hlt k (by simp)
    have hk' : k < cs'.length := by rw [← h.length_eq]; exact hk
    have hE : E cs[k] cs'[k] := h.get hk hk'
    have hget : cs[k]? = some cs[k] := List.getElem?_eq_getElem hk
    rw [List.nodup_cons] at hnd
    rw [List.pairwise_cons] at hord
    unfold levels at hl
    rw [Py.bind_apply] at hl
    rcases hi : invokeCgpm I r T d ins (cs'[k], g) with ⟨e | ⟨s, w1⟩, b2, g1⟩
    · have : Py.atIndex k (invokeCgpm I r T d ins) (cs', g) = (.error e, (cs'.set k b2, g1)) := by
        unfold Py.atIndex
        dsimp only
        rw [List.getElem?_eq_getElem hk']
        dsimp only
        rw [hi]
      rw [this] at hl
      cases hl
    · have : Py.atIndex k (invokeCgpm I r T d ins) (cs', g) = (.ok (s, w1), (cs'.set k b2, g1)) := by
        unfold Py.atIndex
        dsimp only
        rw [List.getElem?_eq_getElem hk']
        dsimp only
        rw [hi]
      rw [this] at hl
      dsimp only at hl
      obtain ⟨hw, hE2, hcase⟩ := invoke_draw Q hE (hd k (by simp) _ hget) hi
      subst hw
      have hset : List.Forall₂ E cs (cs'.set k b2) := by
        refine List.forall₂_iff_get.2 ⟨by simp [h.length_eq], fun i h1 h2 => ?_⟩
        simp only [List.get_eq_getElem, List.getElem_set]
        split
        · next e => subst e; exact hE2
        · exact h.get h1 (by simpa using h2)
      have hsub : ∀ v ∈ Dict.keys s, v ∈ I.outputs cs[k] := by
        rcases hcase with ⟨-, rfl, -⟩ | ⟨-, b1, hs⟩
        · intro v hv; cases hv
        · intro v hv
          have := (hRT _ (List.getElem_mem hk) _ _ _ _ _ (filter_outputs _ _) (inputs_only _ _ _) hs).2 v hv
          simpa using (List.mem_filter.1 this).2
      have hsn : (Dict.keys s).Nodup := by
        rcases hcase with ⟨-, rfl, -⟩ | ⟨-, b1, hs⟩
        · exact List.nodup_nil
        · exact (hRT _ (List.getElem_mem hk) _ _ _ _ _ (filter_outputs _ _) (inputs_only _ _ _) hs).1
      obtain ⟨i1, i2, i3, i4, i5⟩ := ih (fun j hj => hlt j (List.mem_cons_of_mem _ hj)) hnd.2 hord.2
        (d := Dict.update d s) (w := w + 0) (cs' := cs'.set k b2) (g := g1) (by
          intro j hj b hb v hv
          rw [mem_keys_update] at hv
          rcases hv with hv | hv
          · exact hd j (List.mem_cons_of_mem _ hj) b hb v hv
          · exact hdis k j _ _ (fun e => hnd.1 (e ▸ hj)) hget hb v (hsub v hv)) hset hl
      refine ⟨by rw [i1, add_zero], i2, fun v hv => ?_, fun X hX => ?_, ?_⟩
      · rw [i3 v fun j hj => hv j (List.mem_cons_of_mem _ hj), Dict.get?_update _ _ hsn]
        have : Dict.get? s v = none := (Dict.get?_eq_none_iff _ _).2 fun hv' =>
          hv k (by simp) _ hget (hsub v hv')
        rw [this]
      · rw [i4 X fun j hj => hX j (List.mem_cons_of_mem _ hj)]
        exact only_update fun v hv => hX k (by simp) _ hget v (hsub v hv)
      · rw [List.filterMap_cons, hget]
        dsimp only
        have hfull : ∀ v ∈ I.outputs cs[k], Dict.get? full v = Dict.get? s v := by
          intro v hv
          rw [i3 v fun j hj b hb => hdis k j _ _ (fun e => hnd.1 (e ▸ hj)) hget hb v hv,
            Dict.get?_update _ _ hsn]
          have : Dict.get? d v = none := (Dict.get?_eq_none_iff _ _).2 fun hv' =>
            hd k (by simp) _ hget v hv' hv
          rw [this]
          cases Dict.get? s v <;> rfl
        rcases hcase with ⟨c1, rfl, rfl⟩ | ⟨c1, b1, hs⟩
        · exact .skip c1 (fun v hv => by rw [hfull v hv]; rfl) i5
        · refine .draw c1 (b' := b1) (s := s) (g₁ := g1) ?_ hfull i5
          have hon : only (I.inputs cs[k]) full = only (I.inputs cs[k]) d := by
            rw [i4 _ fun j hj b hb v hv hv' => hord.1 j hj _ _ hget hb v hv' hv]
            exact only_update fun v hv hv' => hac _ (List.getElem_mem hk) v hv' (hsub v hv)
          rw [hon]
          exact hs

theorem _root_.Cgpm2.Spec.Supplied.weak {ch : Chain S} {row ins : Dict Var Val} (h : Supplied I ch row ins) :
    ∀ b ∈ ch.cgpms, (∃ v ∈ I.outputs b, v ∈ Dict.keys row) → ∀ i ∈ I.inputs b,
      i ∈ Dict.keys row ∨ i ∈ Dict.keys ins :=
  fun b hb hv i hi => (h b hb hv i hi).imp id And.left

end Chain
end Cgpm2
