import Verif.Lemmas.Entropy
import Verif.Props.Composite
import Verif.Props.Samples
import Verif.Lemmas.TidyLaws

/-!
# Properties C56, C57 and C58: mutual information
-/

namespace Cgpm2
open Spec Entropy

variable {Z : List Var} {n : Nat}

theorem cgpm_draws_nothing (n : Nat) (r : RowId) (t c i : Dict Var Val) (s : Cgpm n) (g : Rng) :
    ((cgpmI n).logpdf r t c i (s, g)).2.2 = g := ((cgpmLaws n).logpdf_noDraw r t c i s g g).2.2

/-- Per sample (helper). -/
theorem sample_splits {p : Product (Cgpm n)} (hI : (productSem (cgpmI n) (cgpmSem n)).Inv p)
    {t0 t1 : List Var} (hd : DifferentBlocks (cgpmI n) p.cgpms t0 t1) {s d0 d1 cs : Dict Var Val}
    {g : Rng} (hcs : (Dict.keys cs).Nodup) (hs : ∀ v, v ∈ Dict.keys s ↔ v ∈ t0 ++ t1)
    (hn : (Dict.keys s).Nodup) (h0 : project t0 s = .ok d0) (h1 : project t1 s = .ok d1) {x y z : Fl}
    (hx : ((cgpmI (n + 1)).logpdf none s cs [] ((.product p : Node (Cgpm n)), g)).1 = .ok x)
    (hy : ((cgpmI (n + 1)).logpdf none d0 cs [] ((.product p : Node (Cgpm n)), g)).1 = .ok y)
    (hz : ((cgpmI (n + 1)).logpdf none d1 cs [] ((.product p : Node (Cgpm n)), g)).1 = .ok z) :
    x = y + z := by
  have key : ∀ {d : Dict Var Val} {w : Fl},
      ((cgpmI (n + 1)).logpdf none d cs [] ((.product p : Node (Cgpm n)), g)).1 = .ok w →
      ∃ f : Cgpm n → Fl, w = (p.cgpms.map f).sum ∧
        ∀ b ∈ p.cgpms, blockLogpdf (cgpmI n) none d cs [] g b = .ok (f b) := by
    intro d w h
    have h : ((productI (cgpmI n)).logpdf none d cs [] (p, g)).1 = .ok w := h
    rw [Props.C21_factorises (cgpmI n) (cgpm_draws_nothing n)] at h
    rcases hm : p.cgpms.mapM (blockLogpdf (cgpmI n) none d cs [] g) with e | l <;> rw [hm] at h
    · cases h
    · cases h
      refine ⟨fun b => match blockLogpdf (cgpmI n) none d cs [] g b with
        | .ok w => w
        | .error _ => 0, ?_, ?_⟩
      · rw [Fl.sum_eq]
        congr 1
        have h2 := (mapM_ok_iff _ _ _).1 hm
        clear hm hI hd h
        generalize p.cgpms = bs at h2
        induction h2 with
        | nil => rfl
        | cons h _ ih => rw [List.map_cons, h, ← ih]
      · intro b hb
        have h2 := (mapM_ok_iff _ _ _).1 hm
        obtain ⟨i, hi, rfl⟩ := List.getElem_of_mem hb
        have := h2.get hi (h2.length_eq ▸ hi)
        have this : blockLogpdf (cgpmI n) none d cs [] g p.cgpms[i] = .ok (l.get ⟨i, h2.length_eq ▸ hi⟩) := this
        dsimp only
        rw [this]
  obtain ⟨fx, rfl, ex⟩ := key hx
  obtain ⟨fy, rfl, ey⟩ := key hy
  obtain ⟨fz, rfl, ez⟩ := key hz
  exact Fl.sum_zip _ _ _ _ fun b hb => block_split (cgpmLaws n) (cgpmOrdered n) (hI.1 b hb) (hd b hb)
    hcs hs hn h0 h1 (ex b hb) (ey b hb) (ez b hb)

theorem Py.if_neg {S α : Type} {p : Prop} [Decidable p] (hp : ¬ p) (a b : Py S α) (s : S) :
    (if p then a else b) s = b s := by
  rw [_root_.if_neg hp]

theorem orDefault_ne (N : Option Nat) : orDefault N ≠ 0 := by
  rcases N with _ | k
  · decide
  · change (if k = 0 then 100 else k) ≠ 0
    split
    · decide
    · assumption

namespace Props

/-! ## C56 Which queries are accepted -/

/-- The check of a query accepts exactly the legal ones; the others raise ValueError. -/
theorem C56 (outputs t0 t1 : List Var) (cs : Option (Dict Var Val)) (ms : Option (List Var)) :
    (LegalMiQuery outputs t0 t1 (Dict.keys (cs.getD [])) (ms.getD []) →
      validateQuery outputs t0 t1 cs ms = .ok ()) ∧
    (¬ LegalMiQuery outputs t0 t1 (Dict.keys (cs.getD [])) (ms.getD []) →
      validateQuery outputs t0 t1 cs ms = .error .valueError) := by
  generalize hc : Dict.keys (cs.getD []) = c
  generalize hm : ms.getD [] = m
  classical
  unfold validateQuery
  rw [hc, hm]
  dsimp only
  have nil : ∀ (l l' : List Var), l.filter (fun v => decide (v ∈ l')) ≠ [] ↔ ¬ Apart l l' := by
    intro l l'
    simp only [ne_eq, List.filter_eq_nil_iff, decide_eq_true_eq, Apart]
    push Not
    rfl
  have nil' : (t0 ++ t1 ++ c ++ m).filter (fun v => decide (v ∉ outputs)) ≠ [] ↔
      ¬ ∀ v, v ∈ t0 ∨ v ∈ t1 ∨ v ∈ c ∨ v ∈ m → v ∈ outputs := by
    simp only [ne_eq, List.filter_eq_nil_iff, decide_eq_true_eq, List.mem_append, not_not, or_assoc]
  have app : ∀ l, Apart (t0 ++ t1) l ↔ Apart t0 l ∧ Apart t1 l := by
    intro l
    simp only [Apart, List.mem_append]
    constructor
    · exact fun h => ⟨fun v hv => h v ⟨.inl hv.1, hv.2⟩, fun v hv => h v ⟨.inr hv.1, hv.2⟩⟩
    · rintro ⟨h1, h2⟩ v ⟨hv | hv, hl⟩
      · exact h1 v ⟨hv, hl⟩
      · exact h2 v ⟨hv, hl⟩
  have eq : setEq t0 t1 = false ↔ ¬ ∀ v, v ∈ t0 ↔ v ∈ t1 := by
    rw [← setEq_iff, Bool.not_eq_true]
  simp only [nil', nil, app, eq]
  constructor
  · intro h
    rw [if_neg (not_not.2 h.known), if_neg (not_not.2 h.tc), if_neg (not_not.2 h.tm),
      if_neg (not_not.2 h.cm), if_neg]
    rintro ⟨h1, h2⟩
    exact h.tt.elim h1 h2
  · intro h
    split
    · rfl
    · next h1 =>
      split
      · rfl
      · next h2 =>
        split
        · rfl
        · next h3 =>
          split
          · rfl
          · next h4 =>
            split
            · rfl
            · next h5 =>
              exfalso
              refine h ⟨not_not.1 h1, not_not.1 h2, not_not.1 h3, not_not.1 h4, ?_⟩
              by_contra h6
              rw [not_or] at h6
              exact h5 h6

/-- A legal query; without the first output it is no longer legal. -/
example : LegalMiQuery [1, 2, 3, 4, 5] [1, 2] [3] [5] [4] ∧ ¬ LegalMiQuery [2, 3, 4, 5] [1, 2] [3] [5] [4] :=
  ⟨⟨by simp only [List.mem_cons, List.not_mem_nil, or_false]; tauto, by simp [Apart], by simp [Apart], by simp [Apart], .inr (by simp [Apart])⟩,
    fun h => by have := h.known 1 (by simp); simp at this⟩

/-- `mutual_information` raises ValueError for a query that is not legal, and changes nothing. -/
theorem C56_rejects {S : Type} (I : Iface S) {c : S} {t0 t1 : List Var} {cs : Option (Dict Var Val)}
    {ms : Option (List Var)}
    (h : ¬ LegalMiQuery (I.outputs c) t0 t1 (Dict.keys (cs.getD [])) (ms.getD [])) (T N : Option Nat)
    (g : Rng) : mutualInformation I t0 t1 cs ms T N (c, g) = (.error .valueError, (c, g)) := by
  unfold mutualInformation
  rw [Py.get_bind]
  change (Py.lift (validateQuery (I.outputs c) t0 t1 cs ms) >>= _) (c, g) = _
  rw [Py.lift_bind, (C56 (I.outputs c) t0 t1 cs ms).2 h]

/-- A legal query without variables to marginalise (helper). -/
theorem mi_legal {S : Type} (I : Iface S) {c : S} {t0 t1 : List Var} {cs : Option (Dict Var Val)}
    (h : LegalMiQuery (I.outputs c) t0 t1 (Dict.keys (cs.getD [])) []) (T N : Option Nat) (g : Rng) :
    mutualInformation I t0 t1 cs none T N (c, g) =
      (estimator I t0 t1 cs (orDefault N) >>= fun s => Py.lift (getEstimate (.list s))) (c, g) := by
  unfold mutualInformation
  rw [Py.get_bind]
  change (Py.lift (validateQuery (I.outputs c) t0 t1 cs none) >>= _) (c, g) = _
  rw [Py.lift_bind, (C56 (I.outputs c) t0 t1 cs none).1 h]
  dsimp only
  exact congrFun (if_pos (show (none : Option (List Var)).getD [] = [] from rfl)) (c, g)

/-! ## C57 Variables in different blocks of a product carry no information about each other -/

/-- (helper) -/
theorem mi_terms_reg {p : Product (Cgpm n)} (h : (cgpmTab Z (n + 1)).Reg (.product p : Node (Cgpm n)))
    (hr : HoldsNothing (cgpmI (n + 1)) (.product p : Node (Cgpm n)) none ∨
      NoNormalUC (n + 1) (.product p : Node (Cgpm n)))
    {t0 t1 : List Var} (ht : ∀ v ∈ t0 ++ t1, v ∈ (cgpmI (n + 1)).outputs (.product p : Node (Cgpm n)))
    (hd : DifferentBlocks (cgpmI n) p.cgpms t0 t1) {cs : Option (Dict Var Val)}
    (hcs : (Dict.keys (cs.getD [])).Nodup) {N : Nat} (hN : N ≠ 0) {g : Rng} {terms : List Fl}
    (ho : (sampleMi (cgpmI (n + 1)) t0 t1 cs N ((.product p : Node (Cgpm n)), g)).1 = .ok terms) :
    terms.length = N ∧ ∀ x : ℝ, .fin x ∈ terms → x = 0 := by
  have hI := (cgpmTLaws Z (n + 1)).inv _ h
  obtain ⟨g1, samples, s0, s1, X, Y, W, hs, h0, h1, hX, hY, hW, rfl⟩ :=
    sampleMi_ok (cgpmLaws (n + 1)) hI ho
  obtain ⟨-, hlen, hex⟩ := exact_reg h hr ht (by simpa using hN) hs
  have hlen : samples.length = N := hlen
  have hex : ∀ s ∈ samples, (∀ v, v ∈ Dict.keys s ↔ v ∈ t0 ++ t1) ∧ (Dict.keys s).Nodup := hex
  refine ⟨length_miTerms (by rw [← hX.length_eq, hlen]) (by rw [← hY.length_eq, ← h0.length_eq, hlen])
    (by rw [← hW.length_eq, ← h1.length_eq, hlen]), ?_⟩
  intro x hx
  obtain ⟨i, a, b, c, ha, hb, hc, e⟩ := mem_miTerms hx
  obtain ⟨s, hsi, hsa⟩ := forall₂_get hX ha
  obtain ⟨d0, hd0, hb⟩ := forall₂_get hY hb
  obtain ⟨d1, hd1, hc⟩ := forall₂_get hW hc
  obtain ⟨s', hs', hp0⟩ := forall₂_get h0 hd0
  obtain ⟨s'', hs'', hp1⟩ := forall₂_get h1 hd1
  rw [hsi] at hs' hs''
  cases hs'; cases hs''
  obtain ⟨hk, hn⟩ := hex s (List.mem_of_getElem? hsi)
  have := sample_splits (hI : (productSem (cgpmI n) (cgpmSem n)).Inv p) hd hcs hk hn hp0 hp1 hsa hb hc
  rw [this] at e
  exact Fl.term_zero e.symm

/-- Each sample's term of the estimate is zero, if it is a number at all. -/
theorem C57_terms {p : Product (Cgpm n)} (h : Tidy Z (n + 1) (.product p : Node (Cgpm n)))
    (hr : HoldsNothing (cgpmI (n + 1)) (.product p : Node (Cgpm n)) none ∨
      NoNormalUC (n + 1) (.product p : Node (Cgpm n)))
    {t0 t1 : List Var} (ht : ∀ v ∈ t0 ++ t1, v ∈ (cgpmI (n + 1)).outputs (.product p : Node (Cgpm n)))
    (hd : DifferentBlocks (cgpmI n) p.cgpms t0 t1) {cs : Option (Dict Var Val)}
    (hcs : (Dict.keys (cs.getD [])).Nodup) {N : Nat} (hN : N ≠ 0) {g : Rng} {terms : List Fl}
    (ho : (sampleMi (cgpmI (n + 1)) t0 t1 cs N ((.product p : Node (Cgpm n)), g)).1 = .ok terms) :
    terms.length = N ∧ ∀ x : ℝ, .fin x ∈ terms → x = 0 :=
  mi_terms_reg (tidy_reg h) hr ht hd hcs hN ho

/-- (helper) -/
theorem mi_zero_reg {p : Product (Cgpm n)} (h : (cgpmTab Z (n + 1)).Reg (.product p : Node (Cgpm n)))
    (hr : HoldsNothing (cgpmI (n + 1)) (.product p : Node (Cgpm n)) none ∨
      NoNormalUC (n + 1) (.product p : Node (Cgpm n)))
    {t0 t1 : List Var} (hne : t0 ≠ []) (hd : DifferentBlocks (cgpmI n) p.cgpms t0 t1)
    {cs : Option (Dict Var Val)} (hcs : (Dict.keys (cs.getD [])).Nodup) {T N : Option Nat} {g : Rng}
    {m : ℝ} {v : Fl}
    (ho : (mutualInformation (cgpmI (n + 1)) t0 t1 cs none T N ((.product p : Node (Cgpm n)), g)).1 =
      .ok (.fin m, v)) : m = 0 ∧ v = .fin 0 := by
  by_cases hq : LegalMiQuery ((cgpmI (n + 1)).outputs (.product p : Node (Cgpm n))) t0 t1
      (Dict.keys (cs.getD [])) []
  swap
  · rw [C56_rejects (cgpmI (n + 1)) (ms := none) hq] at ho; cases ho
  rw [mi_legal (cgpmI (n + 1)) hq] at ho
  have hmem : ∀ v ∈ t0 ++ t1, v ∈ (cgpmI (n + 1)).outputs (.product p : Node (Cgpm n)) := fun v hv =>
    hq.known v ((List.mem_append.1 hv).elim .inl fun h => .inr (.inl h))
  have hset : setEq t0 t1 = false := by
    rw [← Bool.not_eq_true, setEq_iff]
    intro he
    obtain ⟨v, hv⟩ := List.exists_mem_of_ne_nil _ hne
    obtain ⟨b, hb, hvb⟩ := List.mem_flatMap.1
      (show v ∈ p.cgpms.flatMap (cgpmI n).outputs from hmem v (List.mem_append_left _ hv))
    rcases hd b hb with h | h
    · exact h v ⟨hvb, hv⟩
    · exact h v ⟨hvb, (he v).1 hv⟩
  obtain ⟨terms, h1, h2⟩ := Py.bind_ok ho
  unfold estimator at h1
  rw [if_neg (by rw [hset]; simp)] at h1
  obtain ⟨h3, h4⟩ := mi_terms_reg h hr hmem hd hcs (orDefault_ne N) h1
  have h2 : (Fl.mean terms, (Fl.var terms).divLen terms.length) = (Fl.fin m, v) := Except.ok.inj h2
  have hm := (Prod.mk.inj h2).1
  have hv := (Prod.mk.inj h2).2
  have hz : ∀ x ∈ terms, x = .fin 0 := by
    intro x hx
    obtain ⟨r, rfl⟩ := Fl.mean_fin hm x hx
    rw [h4 r hx]
  have hne' : terms ≠ [] := by
    rintro rfl
    exact orDefault_ne N h3.symm
  constructor
  · rw [Fl.mean_zero hne' hz] at hm
    exact (Fl.fin.inj hm).symm
  · rw [← hv, Fl.var_zero hne' hz]
    unfold Fl.divLen
    simp [hne']

/-- Whatever the random draws, `mutual_information` of variables in different blocks, if it
returns a number, returns the estimate 0 with variance 0. -/
theorem C57 {p : Product (Cgpm n)} (h : Tidy Z (n + 1) (.product p : Node (Cgpm n)))
    (hr : HoldsNothing (cgpmI (n + 1)) (.product p : Node (Cgpm n)) none ∨
      NoNormalUC (n + 1) (.product p : Node (Cgpm n)))
    {t0 t1 : List Var} (hne : t0 ≠ []) (hd : DifferentBlocks (cgpmI n) p.cgpms t0 t1)
    {cs : Option (Dict Var Val)} (hcs : (Dict.keys (cs.getD [])).Nodup) {T N : Option Nat} {g : Rng}
    {m : ℝ} {v : Fl}
    (ho : (mutualInformation (cgpmI (n + 1)) t0 t1 cs none T N ((.product p : Node (Cgpm n)), g)).1 =
      .ok (.fin m, v)) : m = 0 ∧ v = .fin 0 :=
  mi_zero_reg (tidy_reg h) hr hne hd hcs ho

/-! ## C58 A query answers with an estimate -/

/-- Whenever some variable is to be marginalised, `mutual_information` raises, whatever the model,
the query and the random draws. -/
theorem C58_violated {S : Type} (I : Iface S) (t0 t1 : List Var) (cs : Option (Dict Var Val))
    {ms : Option (List Var)} (hm : ms.getD [] ≠ []) (T N : Option Nat) (c : S) (g : Rng) :
    ∃ e, (mutualInformation I t0 t1 cs ms T N (c, g)).1 = .error e := by
  rcases h : (mutualInformation I t0 t1 cs ms T N (c, g)).1 with e | r
  · exact ⟨e, rfl⟩
  exfalso
  unfold mutualInformation at h
  rw [Py.get_bind] at h
  obtain ⟨_, _, h⟩ := Py.bind_ok h
  dsimp only at h
  rw [Py.if_neg hm] at h
  obtain ⟨_, _, h⟩ := Py.bind_ok h
  obtain ⟨_, _, h⟩ := Py.bind_ok h
  obtain ⟨_, _, h⟩ := Py.bind_ok h
  obtain ⟨_, _, h⟩ := Py.bind_ok h
  cases h

/-- A legal query without constraints, on a model that simulates: TypeError. -/
theorem C58_type_error {S : Type} (I : Iface S) {t0 t1 ms : List Var} (hm : ms ≠ []) {c : S}
    (hq : LegalMiQuery (I.outputs c) t0 t1 [] ms) {T N : Option Nat} {g : Rng} {s : Dict Var Val}
    {l : List (Dict Var Val)}
    (hs : (I.simulate none ms [] [] (some (orDefault T)) (c, g)).1 = .ok (.many (s :: l))) :
    (mutualInformation I t0 t1 none (some ms) T N (c, g)).1 = .error .typeError := by
  unfold mutualInformation
  rw [Py.get_bind]
  change ((Py.lift (validateQuery (I.outputs c) t0 t1 none (some ms)) >>= _) (c, g)).1 = _
  rw [Py.lift_bind, (C56 (I.outputs c) t0 t1 none (some ms)).1 hq]
  dsimp only
  rw [Py.if_neg (show ¬ (some ms).getD [] = [] from hm), Py.bind_apply]
  rcases hs' : I.simulate none ms [] [] (some (orDefault T)) (c, g) with ⟨r, st⟩
  rw [hs'] at hs
  cases hs
  have hs'' : I.simulate none ((some ms).getD []) [] [] (some (orDefault T)) (c, g) =
    (.ok (.many (s :: l)), st) := hs'
  rw [hs'']
  rfl

/-- Asked for the information between columns 3 and 1 of a product of two views, with the cluster
variable 6 marginalised: the query is legal and the model simulates, so it raises TypeError. -/
example (g : Rng) :
    (mutualInformation (cgpmI 3) [3] [1] none (some [6]) none none
      ((.product Concrete.twoViews : Node (Node (Node Prim))), g)).1 = .error .typeError := by
  have hq : SimQuery 3 (.product Concrete.twoViews : Node (Node (Node Prim))) [6] [] :=
    ⟨by simp, by simp [Dict.keys], by change ∀ v ∈ _, v ∈ [5, 3, 1, 6, 2]; simp [Dict.keys], by simp⟩
  obtain ⟨out, h1, h2, h3, -⟩ := C34_total_partial Concrete.twoViews_tidy (Concrete.twoViews_empty none)
    hq (g := g) (.inl rfl) (N := some 100) (by simp)
  rcases out with s | _ | ⟨s, l⟩
  · exact h2.elim
  · exact absurd h3 (by simp [samplesOf])
  · refine C58_type_error (cgpmI 3) (by simp) ⟨?_, ?_, ?_, ?_, ?_⟩ h1
    · change ∀ v, _ → v ∈ [5, 3, 1, 6, 2]
      simp only [List.mem_cons, List.not_mem_nil, or_false]; tauto
    · simp [Apart]
    · simp [Apart]
    · simp [Apart]
    · right; simp [Apart]

/-- (helper) -/
theorem mi_answers_reg {c : Cgpm n} (h : (cgpmTab Z n).Reg c) (hr : HoldsNothing (cgpmI n) c none)
    {t0 t1 : List Var} {cs : Option (Dict Var Val)} (h0 : t0 ≠ []) (h1 : t1 ≠ [])
    (hn0 : t0.Nodup) (hn1 : t1.Nodup) (hnc : (Dict.keys (cs.getD [])).Nodup)
    (hq : LegalMiQuery ((cgpmI n).outputs c) t0 t1 (Dict.keys (cs.getD [])) [])
    (hc : ∀ kv ∈ cs.getD [], Plausible n c kv.1 kv.2) {g : Rng}
    {N : Option Nat}
    (hs : ∀ t, (∀ v ∈ t, v ∈ t0 ∨ v ∈ t1) → ∀ out, ((cgpmI n).simulate none t (cs.getD []) [] (some (orDefault N)) (c, g)).1 = .ok out →
      ∀ s ∈ samplesOf out, ∀ kv ∈ s, Plausible n c kv.1 kv.2) (T : Option Nat) :
    ∃ m v : ℝ, (mutualInformation (cgpmI n) t0 t1 cs none T N (c, g)).1 = .ok (.fin m, .fin v) := by
  have hI := (cgpmTLaws Z n).inv _ h
  rw [mi_legal (cgpmI n) hq]
  -- the samples
  have sim : ∀ t : List Var, t ≠ [] → t.Nodup → (∀ v ∈ t, v ∈ t0 ∨ v ∈ t1) → ∃ samples c1 g1,
      (cgpmI n).simulate none t (cs.getD []) [] (some (orDefault N)) (c, g) = (.ok (.many samples), c1, g1) ∧
      samples.length = orDefault N ∧ ∀ s ∈ samples, ((∀ v, v ∈ Dict.keys s ↔ v ∈ t) ∧ (Dict.keys s).Nodup) ∧
        ∀ kv ∈ s, Plausible n c kv.1 kv.2 := by
    intro t ht hn hsub
    have hsq : SimQuery n c t (cs.getD []) := by
      refine ⟨ht, ?_, ?_, fun kv hkv => plausible_askable' n c _ _ (hc kv hkv)⟩
      · rw [List.nodup_append]
        refine ⟨hn, hnc, fun a ha b hb e => ?_⟩
        subst e
        rcases hsub a ha with h | h
        · exact hq.tc.1 a ⟨h, hb⟩
        · exact hq.tc.2 a ⟨h, hb⟩
      · intro v hv
        rcases List.mem_append.1 hv with hv | hv
        · exact hq.known v ((hsub v hv).elim .inl fun h => .inr (.inl h))
        · exact hq.known v (.inr (.inr (.inl hv)))
    have hp : Positive c g none (cs.getD []) := by
      by_cases he : cs.getD [] = []
      · exact .inl he
      · exact .inr (positive_reg h hr he (by simpa using hnc)
          (by simpa using fun a b hab => hq.known a (.inr (.inr (.inl (List.mem_map.2 ⟨_, hab, rfl⟩)))))
          (by simpa using fun a b hab => hc _ hab) g)
    obtain ⟨out, e1, e2, e3, e4⟩ := simulates_reg h hr hsq hp (N := some (orDefault N))
      (by simpa using orDefault_ne N)
    have e5 := hs t hsub out e1
    rcases out with s | samples
    · exact e2.elim
    · rcases hst : (cgpmI n).simulate none t (cs.getD []) [] (some (orDefault N)) (c, g) with ⟨r, c1, g1⟩
      rw [hst] at e1
      cases e1
      exact ⟨samples, c1, g1, rfl, e3, fun s hs => ⟨e4 s hs, e5 s hs⟩⟩
  -- the log densities
  have dens : ∀ (g1 : Rng) (d : Dict Var Val), d ≠ [] → (Dict.keys d).Nodup →
      (∀ v ∈ Dict.keys d, v ∈ t0 ∨ v ∈ t1) → (∀ kv ∈ d, Plausible n c kv.1 kv.2) →
      ∃ x, ((cgpmI n).logpdf none d (cs.getD []) [] (c, g1)).1 = .ok x ∧ ∃ r : ℝ, x = .fin r := by
    intro g1 d hd hn hsub hp
    have key : ∀ v ∈ Dict.keys d, v ∉ Dict.keys (cs.getD []) := by
      intro v hv hb
      rcases hsub v hv with h | h
      · exact hq.tc.1 v ⟨h, hb⟩
      · exact hq.tc.2 v ⟨h, hb⟩
    obtain ⟨x, hx⟩ := positive_reg (cs := cs.getD []) h hr hd
      (by rw [List.nodup_append]; exact ⟨hn, hnc, fun a ha b hb e => key a ha (e ▸ hb)⟩)
      (by
        intro kv hkv
        rcases List.mem_append.1 hkv with hkv | hkv
        · exact hq.known _ ((hsub kv.1 (List.mem_map.2 ⟨kv, hkv, rfl⟩)).elim .inl fun h => .inr (.inl h))
        · exact hq.known _ (.inr (.inr (.inl (List.mem_map.2 ⟨kv, hkv, rfl⟩)))))
      (by
        intro kv hkv
        rcases List.mem_append.1 hkv with hkv | hkv
        · exact hp kv hkv
        · exact hc kv hkv) g1
    exact ⟨.fin x, hx, x, rfl⟩
  have nonempty : ∀ {t : List Var} {s : Dict Var Val}, t ≠ [] → (∀ v, v ∈ Dict.keys s ↔ v ∈ t) → s ≠ [] := by
    rintro t s ht hk rfl
    obtain ⟨v, hv⟩ := List.exists_mem_of_ne_nil _ ht
    have := (hk v).2 hv
    simp at this
  -- the estimate
  have fin : ∀ terms : List Fl, terms ≠ [] → (∀ x ∈ terms, ∃ r : ℝ, x = .fin r) →
      (estimator (cgpmI n) t0 t1 cs (orDefault N) (c, g)).1 = .ok terms →
      ∃ m v : ℝ, ((estimator (cgpmI n) t0 t1 cs (orDefault N) >>= fun s => Py.lift (getEstimate (.list s)))
        (c, g)).1 = .ok (.fin m, .fin v) := by
    intro terms hne hfin he
    obtain ⟨m, hm⟩ := Fl.mean_finite hne hfin
    obtain ⟨v, hv⟩ := Fl.var_finite hne hfin
    refine ⟨m, v / terms.length, ?_⟩
    rw [Py.bind_apply]
    rcases hst : estimator (cgpmI n) t0 t1 cs (orDefault N) (c, g) with ⟨r, st⟩
    rw [hst] at he
    cases he
    change Except.ok (Fl.mean terms, (Fl.var terms).divLen terms.length) = _
    rw [hm, hv]
    simp [Fl.divLen, hne]
  by_cases he : setEq t0 t1 = true
  · obtain ⟨samples, c1, g1, e1, e2, e3⟩ := sim t0 h0 hn0 fun v hv => .inl hv
    obtain ⟨X, x1, x2, x3⟩ := mapM_exists (Q := fun x => ∃ r : ℝ, x = Fl.fin r) (l := samples)
      (f := fun s => ((cgpmI n).logpdf none s (cs.getD []) [] (c, g1)).1) (fun s hs => dens g1 s
        (nonempty h0 (e3 s hs).1.1) (e3 s hs).1.2 (fun v hv => .inl (((e3 s hs).1.1 v).1 hv)) (e3 s hs).2)
    refine fin (X.map fun p => -p) ?_ ?_ ?_
    · intro hX
      rw [List.map_eq_nil_iff] at hX
      rw [hX, e2] at x2
      exact orDefault_ne N x2.symm
    · intro x hx
      obtain ⟨y, hy, rfl⟩ := List.mem_map.1 hx
      obtain ⟨r, rfl⟩ := x3 y hy
      exact ⟨-r, rfl⟩
    · unfold estimator
      rw [if_pos he, sampleEntropy_val (cgpmLaws n) hI he e1, x1]
      rfl
  · have hap : Apart t0 t1 := hq.tt.resolve_left fun h => he (setEq_iff.2 h)
    obtain ⟨samples, c1, g1, e1, e2, e3⟩ := sim (t0 ++ t1) (by simp [h0])
      (by rw [List.nodup_append]; exact ⟨hn0, hn1, fun a ha b hb e => hap a ⟨ha, e ▸ hb⟩⟩)
      (fun v hv => List.mem_append.1 hv)
    have part : ∀ ts : List Var, ts ≠ [] → (∀ v ∈ ts, v ∈ t0 ++ t1) → ∃ s0 X,
        samples.mapM (project ts) = .ok s0 ∧
        (s0.mapM fun s => ((cgpmI n).logpdf none s (cs.getD []) [] (c, g1)).1) = .ok X ∧
        X.length = samples.length ∧ ∀ x ∈ X, ∃ r : ℝ, x = Fl.fin r := by
      intro ts hts hsub
      obtain ⟨s0, x1, x2, x3⟩ := mapM_exists (l := samples) (f := project ts)
        (Q := fun d => ∃ x, ((cgpmI n).logpdf none d (cs.getD []) [] (c, g1)).1 = .ok x ∧ ∃ r : ℝ, x = .fin r)
        (by
          intro s hs
          obtain ⟨d, hd⟩ := project_ok (ts := ts) (s := s) fun t ht => ((e3 s hs).1.1 t).2 (hsub t ht)
          refine ⟨d, hd, ?_⟩
          obtain ⟨dn, dg⟩ := project_spec hd
          have hkeys : ∀ v, v ∈ Dict.keys d ↔ v ∈ ts := by
            intro v
            rw [← not_iff_not, ← Dict.get?_eq_none_iff, dg]
            by_cases hv : v ∈ ts
            · simp only [hv, if_true, not_true_eq_false, iff_false]
              rw [Dict.get?_eq_none_iff, not_not]
              exact ((e3 s hs).1.1 v).2 (hsub v hv)
            · simp [hv]
          refine dens g1 d (nonempty hts hkeys) dn
            (fun v hv => List.mem_append.1 (hsub v ((hkeys v).1 hv))) ?_
          rintro ⟨k, x⟩ hkv
          refine (e3 s hs).2 (k, x) (mem_of_get? ?_)
          have h2 := dg k
          rw [if_pos ((hkeys k).1 (List.mem_map.2 ⟨_, hkv, rfl⟩))] at h2
          rw [← h2]
          exact get?_of_mem dn hkv)
      obtain ⟨X, y1, y2, y3⟩ := mapM_exists (l := s0) (Q := fun x => ∃ r : ℝ, x = Fl.fin r)
        (f := fun s => ((cgpmI n).logpdf none s (cs.getD []) [] (c, g1)).1) x3
      exact ⟨s0, X, x1, y1, y2.trans x2, y3⟩
    obtain ⟨s0, Y, y1, y2, y3, y4⟩ := part t0 h0 fun v hv => List.mem_append_left _ hv
    obtain ⟨s1, W, w1, w2, w3, w4⟩ := part t1 h1 fun v hv => List.mem_append_right _ hv
    obtain ⟨X, x1, x2, x3⟩ := mapM_exists (Q := fun x => ∃ r : ℝ, x = Fl.fin r) (l := samples)
      (f := fun s => ((cgpmI n).logpdf none s (cs.getD []) [] (c, g1)).1) (fun s hs => dens g1 s
        (nonempty (t := t0 ++ t1) (by simp [h0]) (e3 s hs).1.1) (e3 s hs).1.2
        (fun v hv => List.mem_append.1 (((e3 s hs).1.1 v).1 hv)) (e3 s hs).2)
    refine fin (miTerms X Y W) ?_ ?_ ?_
    · intro hX
      have := length_miTerms (x2.trans e2) (y3.trans e2) (w3.trans e2)
      rw [hX] at this
      exact orDefault_ne N this.symm
    · intro x hx
      obtain ⟨i, a, b, c', ha, hb, hc', rfl⟩ := mem_miTerms hx
      obtain ⟨ra, rfl⟩ := x3 a (List.mem_of_getElem? ha)
      obtain ⟨rb, rfl⟩ := y4 b (List.mem_of_getElem? hb)
      obtain ⟨rc, rfl⟩ := w4 c' (List.mem_of_getElem? hc')
      exact ⟨ra + -rb + -rc, rfl⟩
    · unfold estimator
      rw [if_neg he, sampleMi_val (cgpmLaws n) hI e1 y1 w1, x1, y2, w2]
      rfl

/-- Without variables to marginalise, a legal query about a model that holds no row under the
key `None` answers with an estimate and its variance, both finite, provided that the constraints
and the values that were simulated have positive density.  Missing from the property: queries that
marginalise variables (`C58_violated`). -/
theorem C58_partial {c : Cgpm n} (h : Tidy Z n c) (hr : HoldsNothing (cgpmI n) c none)
    {t0 t1 : List Var} {cs : Option (Dict Var Val)} (h0 : t0 ≠ []) (h1 : t1 ≠ [])
    (hn0 : t0.Nodup) (hn1 : t1.Nodup) (hnc : (Dict.keys (cs.getD [])).Nodup)
    (hq : LegalMiQuery ((cgpmI n).outputs c) t0 t1 (Dict.keys (cs.getD [])) [])
    (hc : ∀ kv ∈ cs.getD [], Plausible n c kv.1 kv.2) {g : Rng}
    {N : Option Nat}
    (hs : ∀ t out, ((cgpmI n).simulate none t (cs.getD []) [] (some (orDefault N)) (c, g)).1 = .ok out →
      ∀ s ∈ samplesOf out, ∀ kv ∈ s, Plausible n c kv.1 kv.2) (T : Option Nat) :
    ∃ m v : ℝ, (mutualInformation (cgpmI n) t0 t1 cs none T N (c, g)).1 = .ok (.fin m, .fin v) :=
  mi_answers_reg (tidy_reg h) hr h0 h1 hn0 hn1 hnc hq hc (fun t _ => hs t) T

/-- Together: for a legal query about two sets of variables in different blocks the answer is
exactly 0 with variance 0. -/
theorem C57_answers {p : Product (Cgpm n)} (h : Tidy Z (n + 1) (.product p : Node (Cgpm n)))
    (hr : HoldsNothing (cgpmI (n + 1)) (.product p : Node (Cgpm n)) none)
    {t0 t1 : List Var} {cs : Option (Dict Var Val)} (h0 : t0 ≠ []) (h1 : t1 ≠ [])
    (hn0 : t0.Nodup) (hn1 : t1.Nodup) (hnc : (Dict.keys (cs.getD [])).Nodup)
    (hq : LegalMiQuery ((cgpmI (n + 1)).outputs (.product p : Node (Cgpm n))) t0 t1
      (Dict.keys (cs.getD [])) [])
    (hd : DifferentBlocks (cgpmI n) p.cgpms t0 t1)
    (hc : ∀ kv ∈ cs.getD [], Plausible (n + 1) (.product p : Node (Cgpm n)) kv.1 kv.2) {g : Rng}
    {N : Option Nat}
    (hs : ∀ t out, ((cgpmI (n + 1)).simulate none t (cs.getD []) [] (some (orDefault N))
        ((.product p : Node (Cgpm n)), g)).1 = .ok out →
      ∀ s ∈ samplesOf out, ∀ kv ∈ s, Plausible (n + 1) (.product p : Node (Cgpm n)) kv.1 kv.2)
    (T : Option Nat) :
    (mutualInformation (cgpmI (n + 1)) t0 t1 cs none T N ((.product p : Node (Cgpm n)), g)).1 =
      .ok (.fin 0, .fin 0) := by
  obtain ⟨m, v, hmv⟩ := C58_partial h hr h0 h1 hn0 hn1 hnc hq hc hs T
  obtain ⟨rfl, h2⟩ := C57 h (.inl hr) h0 hd hnc hmv
  rw [hmv, h2]

/-- A normal column 4. -/
noncomputable def norm4 : Normal :=
  { outputs := [4], inputs := [], params := [], data := [], N := 0, sumX := 0, sumXSq := 0,
    m := 0, r := 1, s := 1, nu := 1 }

/-- Two normal columns. -/
noncomputable def normals : Product Prim := ⟨[.normal Concrete.norm0, .normal norm4]⟩

example (g : Rng) : (mutualInformation (cgpmI 1) [3] [4] none none none none
    ((.product normals : Node Prim), g)).1 = .ok (.fin 0, .fin 0) := by
  have all : ∀ {P : Prim → Prop}, P (.normal Concrete.norm0) →
      P (.normal norm4) → ∀ c ∈ normals.cgpms, P c := by
    intro P h1 h2 c hc
    simp only [normals, List.mem_cons, List.not_mem_nil, or_false] at hc
    rcases hc with rfl | rfl
    · exact h1
    · exact h2
  have t4 : Tidy [5] 0 (.normal norm4 : Prim) :=
    .prim0 ⟨_, [], .normal (o := 4) (inputs := []) (params := []) (hypers := []) (by
      simp [Normal.init, Dict.get?, norm4]), by simp [LegalHypers, norm4], rfl⟩ rfl
      (by simp [Prim.outputs, norm4, Prim.kind])
  have ht : Tidy [5] 1 (.product normals : Node Prim) :=
    .product (n := 0) (cs := [.normal Concrete.norm0, .normal norm4]) (all Concrete.norm0_tidy t4) (by simp)
      (show Product.init primI _ = _ from rfl)
  have he : HoldsNothing (cgpmI 1) (.product normals : Node Prim) none := by
    refine (holdsNothing_iff (cgpmTLaws [5] 1) (tidy_reg ht) none).2 fun v => ?_
    exact ProdTab.cell_none_iff.2 (all
      (show (primTab [5]).cell (.normal Concrete.norm0) none v = none by
        simp [primTab, Prim.data, Concrete.norm0])
      (show (primTab [5]).cell (.normal norm4) none v = none by
        simp [primTab, Prim.data, norm4]))
  refine C57_answers (n := 0) ht he (by simp) (by simp) (by simp) (by simp) (by simp [Dict.keys])
    ⟨?_, by simp [Apart, Dict.keys], by simp [Apart], by simp [Apart], .inr (by simp [Apart])⟩ ?_
    (by simp) ?_ none
  · change ∀ v, _ → v ∈ [3, 4]
    simp [Dict.keys]
  · refine all (P := fun b => Apart (Prim.outputs b) [3] ∨ Apart (Prim.outputs b) [4]) (.inr ?_) (.inl ?_)
      <;> simp [Apart, Prim.outputs, Concrete.norm0, norm4]
  · intro t out _ s _ kv _
    have : ∀ x, Accepts (.normal Concrete.norm0) x := by rintro (_ | _) <;> trivial
    exact all (P := fun b => kv.1 ∈ b.outputs → Accepts b kv.2 ∧
      (kv.2 = .nan → b.kind ≠ .bernoulli ∧ b.kind ≠ .poisson))
      (fun _ => ⟨by cases kv.2 <;> trivial, fun _ => by simp [Prim.kind]⟩)
      (fun _ => ⟨by cases kv.2 <;> trivial, fun _ => by simp [Prim.kind]⟩)

end Props
end Cgpm2
