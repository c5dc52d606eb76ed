import Verif.Model.Ensemble
import Verif.Spec.Ensemble
import Verif.Lemmas.CppCrosscat

/-!
# Ensembles (helpers)
-/

namespace Cgpm2.Ensemble
open Spec
variable {S α : Type}

/-! ## Jobs -/

theorem mapHere_ok (f : Py (S × Rng) α) (cs cs' : List (S × Rng)) (as : List α) :
    mapHere (cs.map fun _ => f) cs = (.ok as, cs') ↔
      List.Forall₂ (fun c a => (f c).1 = .ok a) cs as ∧ cs' = cs.map fun c => (f c).2 := by
  induction cs generalizing cs' as with
  | nil =>
    simp only [List.map_nil, mapHere, Prod.mk.injEq, Except.ok.injEq, List.forall₂_nil_left_iff]
    exact ⟨fun h => ⟨h.1.symm, h.2.symm⟩, fun h => ⟨h.1.symm, h.2.symm⟩⟩
  | cons c cs ih =>
    rw [List.map_cons, mapHere]
    rcases hf : f c with ⟨r, c'⟩
    rcases r with e | a
    · constructor
      · intro h; cases h
      · rintro ⟨h, -⟩
        rcases h with _ | ⟨h, -⟩
        rw [hf] at h
        cases h
    · rcases hm : mapHere (cs.map fun _ => f) cs with ⟨r, cs''⟩
      rcases r with e | bs
      · constructor
        · intro h; cases h
        · rintro ⟨h, -⟩
          rcases h with _ | ⟨-, h⟩
          have := (ih (cs.map fun c => (f c).2) _).2 ⟨h, rfl⟩
          rw [hm] at this
          cases this
      · have h1 := (ih cs'' bs).1 hm
        constructor
        · intro h
          cases h
          exact ⟨.cons (by rw [hf]) h1.1, by rw [List.map_cons, hf, h1.2]⟩
        · rintro ⟨h, rfl⟩
          rcases h with _ | ⟨h, h'⟩
          have h2 := (ih (cs.map fun c => (f c).2) _).2 ⟨h', rfl⟩
          rw [hm] at h2
          cases h2
          rw [hf] at h
          cases h
          rw [List.map_cons, hf]

theorem mapHere_error (f : Py (S × Rng) α) (cs cs' : List (S × Rng)) (e : Err)
    (h : mapHere (cs.map fun _ => f) cs = (.error e, cs')) :
    ∃ before c after, cs = before ++ c :: after ∧ (∀ d ∈ before, ∃ a, (f d).1 = .ok a) ∧
      (f c).1 = .error e ∧ cs' = (before ++ [c]).map (fun c => (f c).2) ++ after := by
  induction cs generalizing cs' with
  | nil => cases h
  | cons c cs ih =>
    rw [List.map_cons, mapHere] at h
    rcases hf : f c with ⟨r, c'⟩
    rw [hf] at h
    rcases r with e' | a
    · cases h
      exact ⟨[], c, cs, rfl, by simp, by rw [hf], by simp [hf]⟩
    · rcases hm : mapHere (cs.map fun _ => f) cs with ⟨r, cs''⟩
      rw [hm] at h
      rcases r with e' | bs
      · cases h
        obtain ⟨b, d, a', h1, h2, h3, h4⟩ := ih _ hm
        refine ⟨c :: b, d, a', by rw [h1]; rfl, ?_, h3, by simp [hf, h4]⟩
        intro d hd
        rcases List.mem_cons.1 hd with rfl | hd
        · exact ⟨a, by rw [hf]⟩
        · exact h2 d hd
      · cases h

theorem mapThere_ok (f : Py (S × Rng) α) (cs : List (S × Rng)) (as : List α) :
    ((cs.map fun _ => f).zip cs).mapM (fun fc => (fc.1 fc.2).1) = .ok as ↔
      List.Forall₂ (fun c a => (f c).1 = .ok a) cs as := by
  induction cs generalizing as with
  | nil =>
    simp only [List.map_nil, List.zip_nil_left, List.mapM_nil, List.forall₂_nil_left_iff]
    exact ⟨fun h => by cases h; rfl, fun h => by rw [h]; rfl⟩
  | cons c cs ih =>
    rw [List.map_cons, List.zip_cons_cons, List.mapM_cons]
    rcases hf : (f c).1 with e | a
    · constructor
      · intro h; cases h
      · intro h
        rcases h with _ | ⟨h, -⟩
        rw [hf] at h
        cases h
    · rcases hm : ((cs.map fun _ => f).zip cs).mapM (fun fc => (fc.1 fc.2).1) with e | bs
      · rw [hm]
        constructor
        · intro h; cases h
        · intro h
          rcases h with _ | ⟨-, h⟩
          rw [(ih _).2 h] at hm
          cases hm
      · rw [hm]
        constructor
        · intro h
          cases h
          exact .cons hf ((ih bs).1 hm)
        · intro h
          rcases h with _ | ⟨h, h'⟩
          rw [hf] at h
          cases h
          rw [(ih _).2 h'] at hm
          cases hm
          rfl

theorem mapHere_fst (fs : List (Py (S × Rng) α)) (cs : List (S × Rng)) :
    (mapHere fs cs).1 = (fs.zip cs).mapM fun fc => (fc.1 fc.2).1 := by
  induction fs generalizing cs with
  | nil => rfl
  | cons f fs ih =>
    cases cs with
    | nil => rfl
    | cons c cs =>
      rw [List.zip_cons_cons, List.mapM_cons, mapHere, ← ih]
      dsimp only
      rcases f c with ⟨e | a, c'⟩
      · rfl
      · rcases mapHere fs cs with ⟨e | as, cs'⟩ <;> rfl

theorem mapper_fst (mp : Bool) (fs : List (Py (S × Rng) α)) (cs : List (S × Rng)) :
    (mapper mp fs cs).1 = (fs.zip cs).mapM fun fc => (fc.1 fc.2).1 := by
  cases mp
  · exact mapHere_fst fs cs
  · rfl

theorem mapM_ok_iff {A B : Type} (f : A → Except Err B) (l : List A) (out : List B) :
    l.mapM f = .ok out ↔ List.Forall₂ (fun a b => f a = .ok b) l out := by
  induction l generalizing out with
  | nil =>
    rw [List.mapM_nil, List.forall₂_nil_left_iff]
    exact ⟨fun h => by cases h; rfl, fun h => by rw [h]; rfl⟩
  | cons a l ih =>
    rw [List.mapM_cons, List.forall₂_cons_left_iff]
    rcases h : f a with e | b
    · constructor
      · intro h; cases h
      · rintro ⟨b, u, h', -⟩; cases h'
    · rcases hm : l.mapM f with e | bs
      · constructor
        · intro h; cases h
        · rintro ⟨b, u, -, h', -⟩
          rw [(ih u).2 h'] at hm
          cases hm
      · constructor
        · intro h; cases h; exact ⟨b, bs, rfl, (ih bs).1 hm, rfl⟩
        · rintro ⟨b', u, h1, h2, rfl⟩
          cases h1
          rw [(ih u).2 h2] at hm
          cases hm
          rfl

theorem toAll_ok (mp : Bool) (f : Py (S × Rng) α) (cs cs' : List (S × Rng)) (as : List α) :
    toAll mp f cs = (.ok as, cs') ↔ List.Forall₂ (fun c a => (f c).1 = .ok a) cs as ∧
      cs' = if mp then cs else cs.map fun c => (f c).2 := by
  cases mp
  · exact mapHere_ok f cs cs' as
  · change (_, cs) = _ ↔ _
    rw [Prod.mk.injEq, mapThere_ok]
    simp [eq_comm]

theorem forall₂_self {f : Py (S × Rng) (S × Rng)} (hf : ∀ c c', (f c).1 = .ok c' → (f c).2 = c')
    (cs cs' : List (S × Rng)) :
    List.Forall₂ (fun c c' => f c = (.ok c', c')) cs cs' ↔
      List.Forall₂ (fun c a => (f c).1 = .ok a) cs cs' := by
  constructor
  · intro h
    exact h.imp fun c c' h => by rw [h]
  · intro h
    exact h.imp fun c c' h => Prod.ext h (hf c c' h)

theorem replace_ok (mp : Bool) {f : Py (S × Rng) (S × Rng)}
    (hf : ∀ c c', (f c).1 = .ok c' → (f c).2 = c') (cs cs' : List (S × Rng)) :
    replace mp f cs = (.ok (), cs') ↔ List.Forall₂ (fun c c' => f c = (.ok c', c')) cs cs' := by
  rw [forall₂_self hf]
  have e : replace mp f cs = match toAll mp f cs with
    | (.ok as, _) => (.ok (), as)
    | (.error e, cs') => (.error e, cs') := by
    change (Bind.bind (toAll mp f) _ : Py _ _) cs = _
    rcases h : toAll mp f cs with ⟨r, cs''⟩
    change Py.bind _ _ _ = _
    unfold Py.bind
    rw [h]
    cases r <;> rfl
  rw [e]
  rcases h : toAll mp f cs with ⟨r, cs''⟩
  rcases r with e | as
  · constructor
    · intro h'; cases h'
    · intro h'
      have := (toAll_ok mp f cs _ cs').2 ⟨h', rfl⟩
      rw [h] at this
      cases this
  · have h1 := (toAll_ok mp f cs cs'' as).1 h
    constructor
    · intro h'
      cases h'
      exact h1.1
    · intro h'
      have := (toAll_ok mp f cs _ cs').2 ⟨h', rfl⟩
      rw [h] at this
      cases this
      rfl

/-- An exception: run here, the chains before the failing one are changed; run in other
processes, nothing is. -/
theorem toAll_error (mp : Bool) (f : Py (S × Rng) α) (cs cs' : List (S × Rng)) (e : Err)
    (h : toAll mp f cs = (.error e, cs')) :
    if mp then cs' = cs else ∃ before c after, cs = before ++ c :: after ∧
      (∀ d ∈ before, ∃ a, (f d).1 = .ok a) ∧ (f c).1 = .error e ∧
      cs' = (before ++ [c]).map (fun c => (f c).2) ++ after := by
  cases mp
  · exact mapHere_error f cs cs' e h
  · have := congrArg Prod.snd h
    exact this.symm

theorem replace_error (mp : Bool) (f : Py (S × Rng) (S × Rng)) (cs cs' : List (S × Rng)) (e : Err)
    (h : replace mp f cs = (.error e, cs')) : toAll mp f cs = (.error e, cs') := by
  change (Bind.bind (toAll mp f) _ : Py _ _) cs = _ at h
  change Py.bind _ _ _ = _ at h
  unfold Py.bind at h
  rcases h' : toAll mp f cs with ⟨r, cs''⟩
  rw [h'] at h
  cases r with
  | error e' => simpa using h
  | ok as => cases h

/-! ## What a job does -/

theorem modify_eq {β : Type} (call : List Arg → Py (S × Rng) β) (args : List Arg) (c : S × Rng) :
    modify call args c = match call args c with
      | (.ok _, c') => (.ok c', c')
      | (.error e, c') => (.error e, c') := by
  change Py.bind (call args) _ c = _
  unfold Py.bind
  rcases call args c with ⟨_ | _, c'⟩ <;> rfl

theorem modify_self {β : Type} (call : List Arg → Py (S × Rng) β) (args : List Arg)
    (c c' : S × Rng) (h : (modify call args c).1 = .ok c') : (modify call args c).2 = c' := by
  rw [modify_eq] at h ⊢
  rcases h' : call args c with ⟨_ | _, c''⟩
  · rw [h'] at h; cases h
  · rw [h'] at h; cases h; rfl

theorem callEach_eq {β : Type} (call : List Arg → Py (S × Rng) β) (l : List (List Arg))
    (c : S × Rng) : callEach call l c = match oneByOne call l c with
      | (.ok _, c') => (.ok (), c')
      | (.error e, c') => (.error e, c') := by
  induction l generalizing c with
  | nil => rfl
  | cons a l ih =>
    change Py.bind (call a) _ c = _
    unfold Py.bind
    rw [oneByOne]
    rcases call a c with ⟨_ | _, c'⟩
    · rfl
    · change callEach call l c' = _
      rw [ih]
      rcases h : oneByOne call l c' with ⟨_ | _, c''⟩ <;> simp only [h]

theorem collectEach_eq {β : Type} (call : List Arg → Py (S × Rng) β) (l : List (List Arg))
    (c : S × Rng) : collectEach call l c = oneByOne call l c := by
  induction l generalizing c with
  | nil => rfl
  | cons a l ih =>
    change Py.bind (call a) _ c = _
    unfold Py.bind
    rw [oneByOne]
    rcases call a c with ⟨_ | _, c'⟩
    · rfl
    · change Py.bind (collectEach call l) _ c' = _
      unfold Py.bind
      rw [ih]
      rcases h : oneByOne call l c' with ⟨_ | _, c''⟩
      · simp only [h]
      · simp only [h]; rfl

theorem modifyBulk_eq {β : Type} (call : List Arg → Py (S × Rng) β)
    (args : List (Option (List Arg))) {l : List (List Arg)} (h : makeArgsList args = .ok l)
    (c : S × Rng) : modifyBulk call args c = match oneByOne call l c with
      | (.ok _, c') => (.ok c', c')
      | (.error e, c') => (.error e, c') := by
  change Py.bind (Py.lift (makeArgsList args)) _ c = _
  rw [h]
  change Py.bind (callEach call l) _ c = _
  unfold Py.bind
  rw [callEach_eq]
  rcases oneByOne call l c with ⟨_ | _, c''⟩ <;> rfl

theorem modifyBulk_self {β : Type} (call : List Arg → Py (S × Rng) β)
    (args : List (Option (List Arg))) {l : List (List Arg)} (h : makeArgsList args = .ok l)
    (c c' : S × Rng) (h' : (modifyBulk call args c).1 = .ok c') :
    (modifyBulk call args c).2 = c' := by
  rw [modifyBulk_eq call args h] at h' ⊢
  rcases h1 : oneByOne call l c with ⟨_ | _, c''⟩
  · rw [h1] at h'; cases h'
  · rw [h1] at h'; cases h'; rfl

theorem evaluateBulk_eq {β : Type} (call : List Arg → Py (S × Rng) β)
    (args : List (Option (List Arg))) {l : List (List Arg)} (h : makeArgsList args = .ok l)
    (c : S × Rng) : evaluateBulk call args c = oneByOne call l c := by
  change Py.bind (Py.lift (makeArgsList args)) _ c = _
  rw [h]
  exact collectEach_eq call l c

theorem oneByOne_map {A B T R : Type} (f : A → B) (call : B → Py T R) (l : List A) (s : T) :
    oneByOne call (l.map f) s = oneByOne (fun a => call (f a)) l s := by
  induction l generalizing s with
  | nil => rfl
  | cons a l ih =>
    rw [List.map_cons, oneByOne, oneByOne]
    rcases call (f a) s with ⟨_ | _, s'⟩
    · rfl
    · simp only [ih]

/-! ## Arguments -/

theorem zipStar_cons {β : Type} (l : List β) (ls : List (List β)) (h : ls ≠ []) :
    zipStar (l :: ls) = List.zipWith (· :: ·) l (zipStar ls) := by
  cases ls with
  | nil => exact absurd rfl h
  | cons => rfl

theorem zipStar_spec {β : Type} (ls : List (List β)) (hne : ls ≠ []) (N : Nat)
    (h : ∀ l ∈ ls, l.length = N) :
    (zipStar ls).length = N ∧ ∀ i < N, ∃ row, (zipStar ls)[i]? = some row ∧
      row.length = ls.length ∧ ∀ (j : Nat) l, ls[j]? = some l → row[j]? = l[i]? := by
  induction ls with
  | nil => exact absurd rfl hne
  | cons l ls ih =>
    have hl := h l (by simp)
    cases ls with
    | nil =>
      refine ⟨by simp [zipStar, hl], fun i hi => ?_⟩
      have hil : i < l.length := by omega
      refine ⟨[l[i]], by simp [zipStar, hil], rfl, fun j l' hj => ?_⟩
      rcases j with _ | j
      · simp only [List.getElem?_cons_zero, Option.some.injEq] at hj
        subst hj
        simp [hil]
      · simp at hj
    | cons l2 ls =>
      obtain ⟨h1, h2⟩ := ih (by simp) fun l' hl' => h l' (List.mem_cons_of_mem _ hl')
      rw [zipStar_cons _ _ (by simp)]
      refine ⟨by rw [List.length_zipWith, h1, hl, Nat.min_self], fun i hi => ?_⟩
      obtain ⟨row, h3, h4, h5⟩ := h2 i hi
      have hil : i < l.length := by omega
      refine ⟨l[i] :: row, ?_, by rw [List.length_cons, h4]; rfl, fun j l' hj => ?_⟩
      · rw [List.getElem?_zipWith, h3, List.getElem?_eq_getElem hil]
      · rcases j with _ | j
        · simp only [List.getElem?_cons_zero, Option.some.injEq] at hj
          subst hj
          simp [hil]
        · rw [List.getElem?_cons_succ] at hj ⊢
          exact h5 j l' hj

theorem makeArgsList_ok (args : List (Option (List Arg))) (N : Nat) (hex : ∃ l, some l ∈ args)
    (h : ∀ l, some l ∈ args → l.length = N) :
    makeArgsList args = .ok (zipStar (args.map fun a => a.getD (List.replicate N .none))) := by
  have hN : ∀ n ∈ args.filterMap (fun a => a.map List.length), n = N := by
    intro n hn
    obtain ⟨a, ha, he⟩ := List.mem_filterMap.1 hn
    obtain ⟨l, rfl, rfl⟩ := Option.map_eq_some_iff.1 he
    exact h l ha
  unfold makeArgsList
  rcases hNs : args.filterMap (fun a => a.map List.length) with _ | ⟨n, ns⟩
  · obtain ⟨l, hl⟩ := hex
    have : l.length ∈ args.filterMap (fun a => a.map List.length) :=
      List.mem_filterMap.2 ⟨some l, hl, rfl⟩
    rw [hNs] at this
    cases this
  · rw [hNs] at hN
    have hn : n = N := hN n (by simp)
    subst hn
    simp only [hNs]
    rw [if_neg (not_not.2 hN)]

theorem makeArgsList_map {A : Type} (fs : List (A → Arg)) (hfs : fs ≠ []) (l : List A) :
    makeArgsList (fs.map fun f => some (l.map f)) = .ok (l.map fun a => fs.map fun f => f a) := by
  rw [makeArgsList_ok _ l.length]
  · have e : ((fs.map fun f => some (l.map f)).map fun a => a.getD (List.replicate l.length .none)) =
        fs.map fun f => l.map f := by
      rw [List.map_map]; rfl
    rw [e]
    congr 1
    have key : ∀ fs : List (A → Arg), fs ≠ [] → zipStar (fs.map fun f => l.map f) =
        l.map fun a => fs.map fun f => f a := by
      intro fs hfs
      induction fs with
      | nil => exact absurd rfl hfs
      | cons f fs ih =>
        cases fs with
        | nil => simp [zipStar, List.map_map, Function.comp_def]
        | cons f' fs =>
          rw [List.map_cons, zipStar_cons _ _ (by simp), ih (by simp), List.zipWith_map]
          simp
    exact key fs hfs
  · obtain ⟨f, fs, rfl⟩ := List.exists_cons_of_ne_nil hfs
    exact ⟨l.map f, by simp⟩
  · intro l' hl'
    obtain ⟨f, -, he⟩ := List.mem_map.1 hl'
    cases he
    simp

/-! ## Matrices -/

/-- One round of the loop, on positions. -/
def stepAt (g : Nat → Nat → Bool) (m : Mat) (ij : Nat × Nat) : Mat :=
  (m.set ij.1 ij.2 (if g ij.1 ij.2 then 1 else 0)).set ij.2 ij.1 (if g ij.1 ij.2 then 1 else 0)

theorem fold_entry (g : Nat → Nat → Bool) (hg : ∀ i j, g i j = g j i) (Q : List (Nat × Nat))
    (m : Mat) : (Q.foldl (stepAt g) m).size = m.size ∧ ∀ a b,
      (Q.foldl (stepAt g) m).entry a b =
        if (a, b) ∈ Q ∨ (b, a) ∈ Q then (if g a b then 1 else 0) else m.entry a b := by
  induction Q generalizing m with
  | nil => simp
  | cons ij Q ih =>
    obtain ⟨i, j⟩ := ij
    rw [List.foldl_cons]
    obtain ⟨h1, h2⟩ := ih (stepAt g m (i, j))
    refine ⟨by rw [h1]; rfl, fun a b => ?_⟩
    rw [h2]
    by_cases hQ : (a, b) ∈ Q ∨ (b, a) ∈ Q
    · have hQ' : (a, b) ∈ (i, j) :: Q ∨ (b, a) ∈ (i, j) :: Q := by
        rcases hQ with h | h
        · exact .inl (by simp [h])
        · exact .inr (by simp [h])
      rw [if_pos hQ, if_pos hQ']
    · rw [if_neg hQ]
      rw [not_or] at hQ
      simp only [stepAt, Mat.set, List.mem_cons, hQ.1, hQ.2, or_false, Prod.mk.injEq]
      by_cases h1 : a = j ∧ b = i
      · obtain ⟨rfl, rfl⟩ := h1
        simp [hg a b]
      · by_cases h3 : a = i ∧ b = j
        · obtain ⟨rfl, rfl⟩ := h3
          simp
        · rw [if_neg h1, if_neg h3, if_neg]
          rintro (h | h)
          · exact h3 h
          · exact h1 ⟨h.2, h.1⟩

theorem mem_pairs {β : Type} (l : List β) (x y : β) :
    (x, y) ∈ pairs l → ∃ i j : Nat, i < j ∧ l[i]? = some x ∧ l[j]? = some y := by
  induction l with
  | nil => intro h; cases h
  | cons a l ih =>
    intro h
    rcases List.mem_append.1 h with h | h
    · obtain ⟨b, hb, he⟩ := List.mem_map.1 h
      cases he
      obtain ⟨j, hj⟩ := List.mem_iff_getElem?.1 hb
      exact ⟨0, j + 1, by omega, rfl, by rw [List.getElem?_cons_succ]; exact hj⟩
    · obtain ⟨i, j, h1, h2, h3⟩ := ih h
      exact ⟨i + 1, j + 1, by omega, by rw [List.getElem?_cons_succ]; exact h2,
        by rw [List.getElem?_cons_succ]; exact h3⟩

theorem pairs_mem {β : Type} (l : List β) {x y : β} {i j : Nat} (hij : i < j)
    (hi : l[i]? = some x) (hj : l[j]? = some y) : (x, y) ∈ pairs l := by
  induction l generalizing i j with
  | nil => simp at hi
  | cons a l ih =>
    rcases j with _ | j
    · omega
    rw [List.getElem?_cons_succ] at hj
    rcases i with _ | i
    · simp only [List.getElem?_cons_zero, Option.some.injEq] at hi
      subst hi
      exact List.mem_append_left _ (List.mem_map_of_mem (List.mem_of_getElem? hj))
    · rw [List.getElem?_cons_succ] at hi
      exact List.mem_append_right _ (ih (by omega) hi hj)

theorem foldlM_ok {β γ : Type} (f : γ → β → Except Err γ) (g : γ → β → γ) (l : List β) (c : γ)
    (h : ∀ c, ∀ b ∈ l, f c b = .ok (g c b)) : l.foldlM f c = .ok (l.foldl g c) := by
  induction l generalizing c with
  | nil => rfl
  | cons b l ih =>
    rw [List.foldlM_cons, h c b (by simp)]
    exact ih _ fun c b' hb => h c b' (by simp [hb])

/-- The matrix of an equivalence that can be evaluated on the elements of a list. -/
theorem fillPairs_spec {β : Type} [DecidableEq β] (same : β → β → Except Err Bool)
    (R : β → β → Bool) (l : List β) (hn : l.Nodup) (hR : ∀ x ∈ l, ∀ y ∈ l, same x y = .ok (R x y))
    (hrefl : ∀ x ∈ l, R x x = true) (hsymm : ∀ x ∈ l, ∀ y ∈ l, R x y = R y x) :
    ∃ M, fillPairs same l = .ok M ∧ M.size = l.length ∧
      ∀ (i j : Nat) x y, l[i]? = some x → l[j]? = some y → M.entry i j = if R x y then 1 else 0 := by
  set g : Nat → Nat → Bool := fun i j =>
    match l[i]?, l[j]? with
    | some x, some y => R x y
    | _, _ => false with hgdef
  have hg : ∀ i j, g i j = g j i := by
    intro i j
    simp only [hgdef]
    rcases hi : l[i]? with _ | x <;> rcases hj : l[j]? with _ | y <;> try rfl
    exact hsymm x (List.mem_of_getElem? hi) y (List.mem_of_getElem? hj)
  have hgv : ∀ {i j : Nat} {x y}, l[i]? = some x → l[j]? = some y → g i j = R x y := by
    intro i j x y hi hj
    simp only [hgdef, hi, hj]
  set reindex : Dict β Nat := l.zipIdx.foldl (fun d ai => Dict.set d ai.1 ai.2) [] with hre
  have hget : ∀ {i : Nat} {x}, l[i]? = some x → Dict.getItem reindex x = .ok i := by
    intro i x hi
    have hz : l.zipIdx = l.zip (List.range' 0 l.length) := List.zipIdx_eq_zip_range' ..
    have hlt : i < l.length := by
      by_contra hh
      rw [List.getElem?_eq_none (by omega)] at hi
      cases hi
    have := dictZip_get l (List.range' 0 l.length) [] hn (by simp) hi
    rw [← hz] at this
    unfold Dict.getItem
    rw [hre, this, List.getElem?_eq_getElem (by simpa using hlt)]
    simp
  have hpos : ∀ x ∈ l, l[l.idxOf x]? = some x := by
    intro x hx
    rw [List.getElem?_eq_getElem (List.idxOf_lt_length_of_mem hx), List.getElem_idxOf]
  have hidx : ∀ {i : Nat} {x}, l[i]? = some x → l.idxOf x = i := by
    intro i x hi
    have h1 := hget hi
    rw [hget (hpos x (List.mem_of_getElem? hi))] at h1
    cases h1
    rfl
  have hfold : fillPairs same l = .ok ((pairs l).foldl
      (fun m xy => stepAt g m (l.idxOf xy.1, l.idxOf xy.2)) (Mat.eye l.length)) := by
    unfold fillPairs
    refine foldlM_ok _ _ _ _ fun m xy hxy => ?_
    obtain ⟨i, j, -, hi, hj⟩ := mem_pairs l xy.1 xy.2 hxy
    rw [hR _ (List.mem_of_getElem? hi) _ (List.mem_of_getElem? hj)]
    change (do
      let i ← Dict.getItem reindex xy.1
      let j ← Dict.getItem reindex xy.2
      let x : ℚ := if R xy.1 xy.2 then 1 else 0
      pure ((m.set i j x).set j i x) : Except Err Mat) = _
    rw [hget hi, hget hj, hidx hi, hidx hj]
    change Except.ok _ = Except.ok _
    simp only [stepAt, hgv hi hj]
  have hmap : (pairs l).foldl (fun m xy => stepAt g m (l.idxOf xy.1, l.idxOf xy.2))
      (Mat.eye l.length) = ((pairs l).map fun xy => (l.idxOf xy.1, l.idxOf xy.2)).foldl (stepAt g)
        (Mat.eye l.length) := by
    rw [List.foldl_map]
  obtain ⟨h1, h2⟩ := fold_entry g hg ((pairs l).map fun xy => (l.idxOf xy.1, l.idxOf xy.2))
    (Mat.eye l.length)
  refine ⟨_, hfold, ?_, fun i j x y hi hj => ?_⟩
  · rw [hmap, h1]; rfl
  · rw [hmap, h2, hgv hi hj]
    by_cases hij : i = j
    · subst hij
      rw [hi] at hj
      cases hj
      rw [hrefl x (List.mem_of_getElem? hi)]
      simp [Mat.eye]
    · rw [if_pos]
      rcases Nat.lt_or_gt_of_ne hij with h | h
      · exact .inl (List.mem_map.2 ⟨(x, y), pairs_mem l h hi hj, by rw [hidx hi, hidx hj]⟩)
      · exact .inr (List.mem_map.2 ⟨(y, x), pairs_mem l h hj hi, by rw [hidx hi, hidx hj]⟩)

/-- The matrix of an equivalence relation. -/
theorem equivalenceMatrix_of {β : Type} {l : List β} {R : β → β → Bool} {M : Mat}
    (h : ∀ (i j : Nat) x y, l[i]? = some x → l[j]? = some y → M.entry i j = if R x y then 1 else 0)
    (hrefl : ∀ x ∈ l, R x x = true) (hsymm : ∀ x ∈ l, ∀ y ∈ l, R x y = R y x)
    (htrans : ∀ x ∈ l, ∀ y ∈ l, ∀ z ∈ l, R x y = true → R y z = true → R x z = true) :
    EquivalenceMatrix l.length M.entry := by
  have hx : ∀ i (hi : i < l.length), l[i]? = some l[i] := fun i hi => List.getElem?_eq_getElem hi
  have hm : ∀ i (hi : i < l.length), l[i] ∈ l := fun i hi => List.getElem_mem hi
  have h1 : ∀ i (hi : i < l.length) j (hj : j < l.length), M.entry i j = 1 ↔ R l[i] l[j] = true := by
    intro i hi j hj
    rw [h i j _ _ (hx i hi) (hx j hj)]
    split <;> simp_all
  refine ⟨fun i hi j hj => ?_, fun i hi => (h1 i hi i hi).2 (hrefl _ (hm i hi)),
    fun i hi j hj => ?_, fun i hi j hj k hk hij hjk => ?_⟩
  · rw [h i j _ _ (hx i hi) (hx j hj)]
    split <;> simp
  · rw [h i j _ _ (hx i hi) (hx j hj), h j i _ _ (hx j hj) (hx i hi),
      hsymm _ (hm i hi) _ (hm j hj)]
  · exact (h1 i hi k hk).2 (htrans _ (hm i hi) _ (hm j hj) _ (hm k hk) ((h1 i hi j hj).1 hij)
      ((h1 j hj k hk).1 hjk))

end Cgpm2.Ensemble
