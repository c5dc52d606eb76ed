import Verif.Lemmas.Ordered
import Verif.Lemmas.MixEval
import Verif.Lemmas.Hypers
import Verif.Lemmas.ProductEval
import Verif.Spec.Entropy

/-!
# Mutual information (helpers)
-/

namespace Cgpm2
open Spec

namespace Fl

theorem sum_zip {α : Type} (f g h : α → Fl) (l : List α) (e : ∀ a ∈ l, f a = g a + h a) :
    (l.map f).sum = (l.map g).sum + (l.map h).sum := by
  induction l with
  | nil => simp
  | cons a l ih =>
    simp only [List.map_cons, List.sum_cons, ih fun b hb => e b (by simp [hb]), e a (by simp)]
    exact add_add_add_comm _ _ _ _

theorem term_zero {y z : Fl} {x : ℝ} (h : (y + z) - y - z = .fin x) : x = 0 := by
  change ((y + z) + -y) + -z = .fin x at h
  cases y <;> cases z <;> simp [HAdd.hAdd, Add.add, Neg.neg, add, neg] at h
  rename_i a b
  rw [← h]
  change (a + b) + -a + -b = 0
  ring

theorem mean_zero {l : List Fl} (hl : l ≠ []) (h : ∀ x ∈ l, x = .fin 0) : mean l = .fin 0 := by
  have : Fl.sum l = .fin 0 := by
    rw [sum_eq]
    clear hl
    induction l with
    | nil => rfl
    | cons a l ih =>
      rw [List.sum_cons, h a (by simp), ih fun x hx => h x (by simp [hx]), fin_add, add_zero]
  rw [mean, this]
  unfold divLen
  simp [hl]

theorem var_zero {l : List Fl} (hl : l ≠ []) (h : ∀ x ∈ l, x = .fin 0) : var l = .fin 0 := by
  unfold var
  refine mean_zero (by simpa using hl) ?_
  intro x hx
  obtain ⟨y, hy, rfl⟩ := List.mem_map.1 hx
  rw [mean_zero hl h, h y hy]
  change sq (.fin (0 + -0)) = .fin 0
  simp [sq]

theorem mean_fin {l : List Fl} {x : ℝ} (h : mean l = .fin x) : ∀ y ∈ l, ∃ r, y = .fin r := by
  apply (sum_fin_iff l).1
  unfold mean at h
  rcases hs : Fl.sum l with _ | _ | _ | r
  · rw [hs] at h; cases h
  · rw [hs] at h; cases h
  · rw [hs] at h; cases h
  · exact ⟨r, rfl⟩

theorem mean_finite {l : List Fl} (hl : l ≠ []) (h : ∀ x ∈ l, ∃ r : ℝ, x = .fin r) :
    ∃ m : ℝ, mean l = .fin m := by
  obtain ⟨r, hr⟩ := (sum_fin_iff l).2 h
  refine ⟨r / l.length, ?_⟩
  rw [mean, hr]
  simp [divLen, hl]

theorem var_finite {l : List Fl} (hl : l ≠ []) (h : ∀ x ∈ l, ∃ r : ℝ, x = .fin r) :
    ∃ m : ℝ, var l = .fin m := by
  obtain ⟨m, hm⟩ := mean_finite hl h
  refine mean_finite (by simpa using hl) ?_
  intro x hx
  obtain ⟨y, hy, rfl⟩ := List.mem_map.1 hx
  obtain ⟨r, rfl⟩ := h y hy
  rw [hm]
  exact ⟨_, rfl⟩

end Fl

namespace Entropy

theorem setEq_iff {l l' : List Var} : setEq l l' = true ↔ ∀ v, v ∈ l ↔ v ∈ l' := by
  unfold setEq
  rw [Bool.and_eq_true, List.all_eq_true, List.all_eq_true]
  simp only [decide_eq_true_eq]
  exact ⟨fun h v => ⟨h.1 v, h.2 v⟩, fun h => ⟨fun v => (h v).1, fun v => (h v).2⟩⟩

theorem project_spec {ts : List Var} {s d : Dict Var Val} (h : project ts s = .ok d) :
    (Dict.keys d).Nodup ∧ ∀ k, Dict.get? d k = if k ∈ ts then Dict.get? s k else none := by
  unfold project at h
  rcases hm : ts.mapM (fun t => (do
      let x ← Dict.getItem s t
      pure (t, x) : Except Err (Var × Val))) with e | items
  · rw [hm] at h; cases h
  · rw [hm] at h
    simp only [bind, Except.bind, pure, Except.pure, Except.ok.injEq] at h
    subst h
    refine ⟨Dict.nodup_keys_update _ _ (by simp), ?_⟩
    have hf := (mapM_ok_iff _ _ _).1 hm
    have hf' : List.Forall₂ (fun t (it : Var × Val) => it.1 = t ∧ Dict.get? s t = some it.2) ts items := by
      refine hf.imp fun t it hit => ?_
      unfold Dict.getItem at hit
      rcases hg : Dict.get? s t with _ | x <;> rw [hg] at hit
      · cases hit
      · simp only [bind, Except.bind, pure, Except.pure, Except.ok.injEq] at hit
        subst hit; exact ⟨rfl, rfl⟩
    have key : ∀ acc : Dict Var Val, ∀ k, Dict.get? (Dict.update acc items) k =
        if k ∈ ts then Dict.get? s k else Dict.get? acc k := by
      clear hm hf
      induction hf' with
      | nil => intro acc k; simp [Dict.update_nil]
      | @cons t it ts items h1 _ ih =>
        intro acc k
        rw [Dict.update_cons, ih, Dict.get?_set, h1.1]
        by_cases hk : k ∈ ts
        · simp [hk]
        · by_cases ht : t = k
          · subst ht; simp [hk, h1.2]
          · simp [hk, ht, Ne.symm ht]
    intro k
    rw [key, Dict.get?_nil]

theorem get?_only (l : List Var) (d : Dict Var Val) (k : Var) :
    Dict.get? (only l d) k = if k ∈ l then Dict.get? d k else none := by
  unfold only
  induction d with
  | nil => simp
  | cons kv d ih =>
    obtain ⟨a, b⟩ := kv
    by_cases ha : a ∈ l
    · simp only [List.filter_cons, ha, decide_true, if_true, Dict.get?_cons, ih]
      by_cases hk : a = k
      · subst hk; simp [ha]
      · simp [hk]
    · simp only [List.filter_cons, ha, decide_false, Bool.false_eq_true, if_false, ih,
        Dict.get?_cons]
      by_cases hk : a = k
      · subst hk; simp [ha]
      · simp [hk]

theorem nodup_only (l : List Var) {d : Dict Var Val} (h : (Dict.keys d).Nodup) :
    (Dict.keys (only l d)).Nodup := List.Nodup.sublist (List.filter_sublist.map _) h

theorem nil_of_get? {d : Dict Var Val} (h : ∀ k, Dict.get? d k = none) : d = [] := by
  rcases d with _ | ⟨⟨k, v⟩, d⟩
  · rfl
  · have := h k; simp [Dict.get?_cons] at this

theorem mem_miTerms {X Y Z : List Fl} {x : Fl} (h : x ∈ miTerms X Y Z) :
    ∃ (i : Nat) (a b c : Fl), X[i]? = some a ∧ Y[i]? = some b ∧ Z[i]? = some c ∧ x = a - b - c := by
  induction X generalizing Y Z with
  | nil => simp [miTerms] at h
  | cons a X ih =>
    rcases Y with _ | ⟨b, Y⟩
    · simp [miTerms] at h
    · rcases Z with _ | ⟨c, Z⟩
      · simp [miTerms] at h
      · simp only [miTerms, List.mem_cons] at h
        rcases h with rfl | h
        · exact ⟨0, a, b, c, rfl, rfl, rfl, rfl⟩
        · obtain ⟨i, a', b', c', h1, h2, h3, h4⟩ := ih h
          exact ⟨i + 1, a', b', c', by simpa using h1, by simpa using h2, by simpa using h3, h4⟩

theorem length_miTerms {n : Nat} {X Y Z : List Fl} (hx : X.length = n) (hy : Y.length = n)
    (hz : Z.length = n) : (miTerms X Y Z).length = n := by
  induction n generalizing X Y Z with
  | zero => rw [List.length_eq_zero_iff] at hx; subst hx; rfl
  | succ n ih =>
    rcases X with _ | ⟨a, X⟩
    · cases hx
    · rcases Y with _ | ⟨b, Y⟩
      · cases hy
      · rcases Z with _ | ⟨c, Z⟩
        · cases hz
        · simp only [miTerms, List.length_cons, Nat.add_right_cancel_iff] at *
          exact ih hx hy hz

theorem forall₂_get {α β : Type} {R : α → β → Prop} {l : List α} {l' : List β}
    (h : List.Forall₂ R l l') {i : Nat} {b : β} (hb : l'[i]? = some b) :
    ∃ a, l[i]? = some a ∧ R a b := by
  induction h generalizing i with
  | nil => simp at hb
  | @cons x y l l' hxy _ ih =>
    cases i with
    | zero => simp only [List.getElem?_cons_zero, Option.some.injEq] at hb; subst hb; exact ⟨x, rfl, hxy⟩
    | succ i => simpa using ih (by simpa using hb)

variable {S : Type} {I : Iface S} {M : Sem S}

/-- The log densities of a list of samples, asked of an object that answers like `c`. -/
theorem logpdfs_bind (L : Laws I M) {c c1 : S} (hE : M.E c c1) {cs : Dict Var Val} {β : Type}
    {l : List (Dict Var Val)} {f : List Fl → Py (S × Rng) β}
    (hf : ∀ X, Py.Rel M.E (f X) (f X)) (g1 : Rng) :
    ((Py.mapL (fun s => I.logpdf none s cs []) l >>= f) (c1, g1)).1 =
      (l.mapM fun s => (I.logpdf none s cs [] (c, g1)).1).bind fun X => (f X (c1, g1)).1 := by
  have hr : ∀ a, Py.Rel M.E (I.logpdf none a cs []) (I.logpdf none a cs []) :=
    fun a => L.logpdf _ _ _ _
  have hn : ∀ a, Py.NoDraw (I.logpdf none a cs []) := fun a => L.logpdf_noDraw _ _ _ _
  have hk : ∀ a, Py.Keeps M.E (I.logpdf none a cs []) := fun a => L.logpdf_keeps _ _ _ _
  have hE1 : M.E c1 c1 := L.refl_right _ _ hE
  rw [Py.val_bind (E := M.E) (Py.NoDraw.mapL hn l) (Py.Keeps.mapL L.trans L.refl_right hk l) hf hE1 g1,
    Py.val_mapL hn hk hr hE1]
  congr 1
  congr 1
  funext a
  exact (L.logpdf none a cs [] c c1 g1 hE).1.symm

/-- `_sample_mi`, once `simulate` has answered. -/
theorem sampleMi_val (L : Laws I M) {c c1 : S} (hc : M.Inv c) {g g1 : Rng} {t0 t1 : List Var}
    {cs : Option (Dict Var Val)} {N : Nat} {samples s0 s1 : List (Dict Var Val)}
    (hs : I.simulate none (t0 ++ t1) (cs.getD []) [] (some N) (c, g) = (.ok (.many samples), c1, g1))
    (h0 : samples.mapM (project t0) = .ok s0) (h1 : samples.mapM (project t1) = .ok s1) :
    (sampleMi I t0 t1 cs N (c, g)).1 =
      (samples.mapM fun s => (I.logpdf none s (cs.getD []) [] (c, g1)).1).bind fun X =>
      (s0.mapM fun s => (I.logpdf none s (cs.getD []) [] (c, g1)).1).bind fun Y =>
      (s1.mapM fun s => (I.logpdf none s (cs.getD []) [] (c, g1)).1).bind fun Z =>
      .ok (miTerms X Y Z) := by
  have hE := L.E_simulate hc none (t0 ++ t1) (cs.getD []) [] (some N) g
  rw [hs] at hE
  have hr : ∀ a, Py.Rel M.E (I.logpdf none a (cs.getD []) []) (I.logpdf none a (cs.getD []) []) :=
    fun a => L.logpdf _ _ _ _
  unfold sampleMi
  rw [Py.bind_apply, hs]
  change ((Py.lift (samples.mapM (project t0)) >>= _) (c1, g1)).1 = _
  rw [Py.lift_bind, h0]
  change ((Py.lift (samples.mapM (project t1)) >>= _) (c1, g1)).1 = _
  rw [Py.lift_bind, h1]
  dsimp only
  rw [logpdfs_bind L hE (fun X =>
    (Py.Rel.mapL hr s0).bind fun Y => (Py.Rel.mapL hr s1).bind fun Z => Py.Rel.pure _)]
  congr 1
  funext X
  rw [logpdfs_bind L hE (fun Y => (Py.Rel.mapL hr s1).bind fun Z => Py.Rel.pure _)]
  congr 1
  funext Y
  rw [logpdfs_bind L hE (fun Y => Py.Rel.pure _)]
  rfl

/-- What a successful run of `_sample_mi` computed. -/
theorem sampleMi_ok (L : Laws I M) {c : S} (hc : M.Inv c) {g : Rng} {t0 t1 : List Var}
    {cs : Option (Dict Var Val)} {N : Nat} {terms : List Fl}
    (h : (sampleMi I t0 t1 cs N (c, g)).1 = .ok terms) :
    ∃ (g1 : Rng) (samples s0 s1 : List (Dict Var Val)) (X Y Z : List Fl),
      (I.simulate none (t0 ++ t1) (cs.getD []) [] (some N) (c, g)).1 = .ok (.many samples) ∧
      List.Forall₂ (fun s d => project t0 s = .ok d) samples s0 ∧
      List.Forall₂ (fun s d => project t1 s = .ok d) samples s1 ∧
      List.Forall₂ (fun s x => (I.logpdf none s (cs.getD []) [] (c, g1)).1 = .ok x) samples X ∧
      List.Forall₂ (fun s x => (I.logpdf none s (cs.getD []) [] (c, g1)).1 = .ok x) s0 Y ∧
      List.Forall₂ (fun s x => (I.logpdf none s (cs.getD []) [] (c, g1)).1 = .ok x) s1 Z ∧
      terms = miTerms X Y Z := by
  rcases hs : I.simulate none (t0 ++ t1) (cs.getD []) [] (some N) (c, g) with ⟨_ | out, c1, g1⟩
  · unfold sampleMi at h
    rw [Py.bind_apply, hs] at h
    cases h
  rcases out with s | samples
  · unfold sampleMi at h
    rw [Py.bind_apply, hs] at h
    cases h
  rcases h0 : samples.mapM (project t0) with e | s0
  · unfold sampleMi at h
    rw [Py.bind_apply, hs] at h
    change ((Py.lift (samples.mapM (project t0)) >>= _) (c1, g1)).1 = _ at h
    rw [Py.lift_bind, h0] at h
    cases h
  rcases h1 : samples.mapM (project t1) with e | s1
  · unfold sampleMi at h
    rw [Py.bind_apply, hs] at h
    change ((Py.lift (samples.mapM (project t0)) >>= _) (c1, g1)).1 = _ at h
    rw [Py.lift_bind, h0] at h
    change ((Py.lift (samples.mapM (project t1)) >>= _) (c1, g1)).1 = _ at h
    rw [Py.lift_bind, h1] at h
    cases h
  rw [sampleMi_val L hc hs h0 h1] at h
  rcases hX : samples.mapM (fun a => (I.logpdf none a (cs.getD []) [] (c, g1)).1) with e | X <;>
    rw [hX] at h
  · cases h
  dsimp only [Except.bind] at h
  rcases hY : s0.mapM (fun a => (I.logpdf none a (cs.getD []) [] (c, g1)).1) with e | Y <;>
    rw [hY] at h
  · cases h
  dsimp only at h
  rcases hZ : s1.mapM (fun a => (I.logpdf none a (cs.getD []) [] (c, g1)).1) with e | Z <;>
    rw [hZ] at h
  · cases h
  exact ⟨g1, samples, s0, s1, X, Y, Z, rfl, (mapM_ok_iff _ _ _).1 h0, (mapM_ok_iff _ _ _).1 h1,
    (mapM_ok_iff _ _ _).1 hX, (mapM_ok_iff _ _ _).1 hY, (mapM_ok_iff _ _ _).1 hZ,
    (Except.ok.inj h).symm⟩

/-- `_sample_entropy`, once `simulate` has answered. -/
theorem sampleEntropy_val (L : Laws I M) {c c1 : S} (hc : M.Inv c) {g g1 : Rng} {t0 t1 : List Var}
    (ht : setEq t0 t1 = true)
    {cs : Option (Dict Var Val)} {N : Nat} {samples : List (Dict Var Val)}
    (hs : I.simulate none t0 (cs.getD []) [] (some N) (c, g) = (.ok (.many samples), c1, g1)) :
    (sampleEntropy I t0 t1 cs N (c, g)).1 =
      (samples.mapM fun s => (I.logpdf none s (cs.getD []) [] (c, g1)).1).bind fun X =>
      .ok (X.map fun p => -p) := by
  have hE := L.E_simulate hc none t0 (cs.getD []) [] (some N) g
  rw [hs] at hE
  unfold sampleEntropy
  rw [Py.assert_bind_pos ht, Py.bind_apply, hs]
  change ((Py.mapL (fun s => I.logpdf none s (cs.getD []) []) samples >>= _) (c1, g1)).1 = _
  rw [logpdfs_bind L hE (fun X => Py.Rel.pure _)]
  rfl

theorem mapM_exists {α β : Type} {f : α → Except Err β} {Q : β → Prop} :
    ∀ {l : List α}, (∀ a ∈ l, ∃ b, f a = .ok b ∧ Q b) →
      ∃ l', l.mapM f = .ok l' ∧ l'.length = l.length ∧ ∀ b ∈ l', Q b
  | [], _ => ⟨[], rfl, rfl, by simp⟩
  | a :: l, h => by
    obtain ⟨b, h1, h2⟩ := h a (by simp)
    obtain ⟨l', h3, h4, h5⟩ := mapM_exists (l := l) fun a ha => h a (by simp [ha])
    refine ⟨b :: l', by rw [List.mapM_cons, h1, h3]; rfl, by simp [h4], ?_⟩
    simpa using ⟨h2, h5⟩

theorem project_ok {ts : List Var} {s : Dict Var Val} (h : ∀ t ∈ ts, t ∈ Dict.keys s) :
    ∃ d, project ts s = .ok d := by
  have : ∀ l : List Var, (∀ t ∈ l, t ∈ Dict.keys s) → ∃ items, l.mapM (fun t => (do
      let x ← Dict.getItem s t
      pure (t, x) : Except Err (Var × Val))) = .ok items := by
    intro l hl
    obtain ⟨l', h1, -⟩ := mapM_exists (Q := fun _ => True) (l := l) (f := fun t => (do
      let x ← Dict.getItem s t
      pure (t, x) : Except Err (Var × Val))) (fun t ht => by
        obtain ⟨x, hx⟩ := Dict.exists_get?_of_mem_keys (hl t ht)
        exact ⟨(t, x), by unfold Dict.getItem; rw [hx]; rfl, trivial⟩)
    exact ⟨l', h1⟩
  obtain ⟨items, hi⟩ := this ts h
  exact ⟨Dict.update [] items, by unfold project; rw [hi]; rfl⟩

theorem get?_of_mem {d : Dict Var Val} (hn : (Dict.keys d).Nodup) {k : Var} {x : Val} (h : (k, x) ∈ d) :
    Dict.get? d k = some x := by
  induction d with
  | nil => cases h
  | cons kv d ih =>
    obtain ⟨a, b⟩ := kv
    rw [Dict.keys_cons, List.nodup_cons] at hn
    rw [Dict.get?_cons]
    rcases List.mem_cons.1 h with e | h
    · cases e; simp
    · rw [if_neg, ih hn.2 h]
      rintro rfl
      exact hn.1 (List.mem_map.2 ⟨_, h, rfl⟩)

theorem mem_of_get? {d : Dict Var Val} {k : Var} {x : Val} (h : Dict.get? d k = some x) : (k, x) ∈ d := by
  induction d with
  | nil => simp at h
  | cons kv d ih =>
    obtain ⟨a, b⟩ := kv
    rw [Dict.get?_cons] at h
    split at h
    · next e => cases h; subst e; simp
    · exact List.mem_cons_of_mem _ (ih h)

/-- The parts of one sample that belong to one block. -/
theorem block_split (L : Laws I M) (O : Ordered I M) {b : S} (hb : M.Inv b) {t0 t1 : List Var}
    (hd : Apart (I.outputs b) t0 ∨ Apart (I.outputs b) t1) {s d0 d1 cs : Dict Var Val} {g : Rng}
    (hcs : (Dict.keys cs).Nodup) (hs : ∀ v, v ∈ Dict.keys s ↔ v ∈ t0 ++ t1)
    (hn : (Dict.keys s).Nodup) (h0 : project t0 s = .ok d0) (h1 : project t1 s = .ok d1)
    {x : Fl} (hx : blockLogpdf I none s cs [] g b = .ok x) {y : Fl}
    (hy : blockLogpdf I none d0 cs [] g b = .ok y) {z : Fl}
    (hz : blockLogpdf I none d1 cs [] g b = .ok z) : x = y + z := by
  have step : ∀ {ta tb : List Var} {da db : Dict Var Val}, Apart (I.outputs b) tb →
      (∀ v, v ∈ Dict.keys s ↔ v ∈ ta ∨ v ∈ tb) → project ta s = .ok da → project tb s = .ok db →
      blockLogpdf I none da cs [] g b = blockLogpdf I none s cs [] g b ∧
      blockLogpdf I none db cs [] g b = .ok (.fin 0) := by
    intro ta tb da db hap hk ha hb'
    obtain ⟨na, ga⟩ := project_spec ha
    obtain ⟨nb, gb⟩ := project_spec hb'
    constructor
    · have same : SameDict (only (I.outputs b) da) (only (I.outputs b) s) := by
        refine .of_get? (nodup_only _ na) (nodup_only _ hn) fun k => ?_
        rw [get?_only, get?_only, ga]
        by_cases ho : k ∈ I.outputs b
        · simp only [ho, if_true]
          by_cases hta : k ∈ ta
          · simp [hta]
          · simp only [hta, if_false]
            symm
            rw [Dict.get?_eq_none_iff, hk]
            rintro (h | h)
            · exact hta h
            · exact hap k ⟨ho, h⟩
        · simp [ho]
      have hc' : SameDict (only (I.outputs b) cs) (only (I.outputs b) cs) := .rfl' (nodup_only _ hcs)
      have hi' : SameDict (only (I.inputs b) ([] : Dict Var Val)) (only (I.inputs b) []) :=
        .rfl' (by simp [only])
      unfold blockLogpdf
      simp only [same.nil_iff]
      split
      · rfl
      · exact (O.logpdf none same hc' hi' b b g (L.refl b hb)).1
    · have : only (I.outputs b) db = [] := by
        apply nil_of_get?
        intro k
        rw [get?_only, gb]
        by_cases ho : k ∈ I.outputs b
        · have : k ∉ tb := fun h => hap k ⟨ho, h⟩
          simp [this]
        · simp [ho]
      simp [blockLogpdf, this]
  rcases hd with hd | hd
  · obtain ⟨e1, e2⟩ := step hd (fun v => by rw [hs, List.mem_append, or_comm]) h1 h0
    rw [hy] at e2; rw [hx, hz] at e1
    cases e2; cases e1
    exact (Fl.zero_add' x).symm
  · obtain ⟨e1, e2⟩ := step hd (fun v => by rw [hs, List.mem_append]) h0 h1
    rw [hz] at e2; rw [hx, hy] at e1
    cases e2; cases e1
    exact (Fl.add_comm' x _).trans (Fl.zero_add' x) |>.symm

end Entropy
end Cgpm2
