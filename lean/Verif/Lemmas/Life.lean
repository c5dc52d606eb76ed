import Verif.Lemmas.Gibbs
import Verif.Lemmas.Ensemble
import Verif.Spec.Life

/-!
# The life of an ensemble (helpers)
-/

namespace Cgpm2.Life
open Spec Views Ensemble

/-- What is known of a chain. -/
structure Good (outputs : List Var) (τ : Var → Prim.Kind × Nat) (T : Ledger) (x : Crosscat) : Prop where
  cc : ∃ Z, CC Z x
  cols : (columns x).Perm outputs
  cells : ∀ g r, ∀ v ∈ outputs, heldCell (cgpmI 3) (whole x) g r v = T.cells r v
  types : TypesOf τ x
  rows : RowsAmong T.rows x

/-- The types that were asked for. -/
def Named (outputs : List Var) (types : List Dist) (τ : Var → Prim.Kind × Nat) : Prop :=
  ∀ od ∈ outputs.zip types, ∃ p, τ od.1 = typeOf p ∧ OfType od.2 p

/-- The chain is a CrossCat with the data of the ledger. -/
def Chain (outputs : List Var) (types : List Dist) (T : Ledger) (c : Cgpm 3 × Rng) : Prop :=
  ∃ x τ, c.1 = whole x ∧ Good outputs τ T x ∧ Named outputs types τ

variable {outputs : List Var} {types : List Dist} {τ : Var → Prim.Kind × Nat} {T : Ledger}

theorem outs_of_shapes {Z : List Var} {l' l : List (Cgpm 2)}
    (hf : List.Forall₂ (fun v' v => (cgpmSem 2).shape v' = (cgpmSem 2).shape v) l' l)
    (hr' : ∀ v ∈ l', (cgpmTab Z 2).Reg v) (hr : ∀ v ∈ l, (cgpmTab Z 2).Reg v) :
    l'.map (cgpmI 2).outputs = l.map (cgpmI 2).outputs := by
  induction hf with
  | nil => rfl
  | cons h1 _ ih =>
    rw [List.map_cons, List.map_cons, ih (fun v hv => hr' v (List.mem_cons_of_mem _ hv))
      (fun v hv => hr v (List.mem_cons_of_mem _ hv)),
      (cgpmFrame Z 2).outs _ _ (hr' _ List.mem_cons_self) (hr _ List.mem_cons_self) h1]

/-- A regular object with the shape of a CrossCat is one, with the same columns and types. -/
theorem same_shape {Z : List Var} {x : Crosscat} {c : Cgpm 3} (h : CC Z x) (hr : (cgpmTab Z 3).Reg c)
    (hs : (cgpmSem 3).shape c = (cgpmSem 3).shape (whole x)) :
    ∃ x', c = whole x' ∧ CC Z x' ∧ columns x' = columns x ∧ ∀ τ, TypesOf τ x → TypesOf τ x' := by
  rcases c with p | x' | a | a | m | m
  · have hs : p.shape = Shape.product _ := hs
    cases hs
  · have hs : Shape.product (x'.cgpms.map (cgpmSem 2).shape) =
      Shape.product (x.cgpms.map (cgpmSem 2).shape) := hs
    injection hs with hs
    have hr : (cgpmTab Z 3).Reg (whole x') := hr
    have hreg : ∀ v ∈ x'.cgpms, (cgpmTab Z 2).Reg v := hr.1
    have hf : List.Forall₂ (fun v' v => (cgpmSem 2).shape v' = (cgpmSem 2).shape v) x'.cgpms x.cgpms := by
      have h1 : List.Forall₂ (· = ·) (x'.cgpms.map (cgpmSem 2).shape) (x.cgpms.map (cgpmSem 2).shape) := by
        rw [hs]; exact List.forall₂_same.2 fun _ _ => rfl
      exact List.forall₂_map_right_iff.1 (List.forall₂_map_left_iff.1 h1)
    have hm : ∀ v' ∈ x'.cgpms, ∃ v ∈ x.cgpms, (cgpmSem 2).shape v' = (cgpmSem 2).shape v := by
      intro v' hv'
      obtain ⟨i, hi, rfl⟩ := List.getElem_of_mem hv'
      exact ⟨x.cgpms[i]'(hf.length_eq ▸ hi), List.getElem_mem _, hf.get hi _⟩
    have hal : Views.Alike x' x := outs_of_shapes hf hreg h.reg.1
    have hcc : CC Z x' := by
      refine ⟨hr, fun v' hv' => ?_, ?_⟩
      · obtain ⟨v, hv, e⟩ := hm v' hv'
        exact isView_of_shape e (hreg v' hv') (h.views v hv)
      · rw [hal.columns]; exact h.plain
    refine ⟨x', rfl, hcc, hal.columns, fun τ ht => ?_⟩
    have hfit := fits_of (R := fun _ => True) h ht fun _ _ _ _ => trivial
    refine (of_fits (R := fun _ => True) hcc fun v' hv' => ?_).1
    obtain ⟨v, hv, e⟩ := hm v' hv'
    exact ⟨(hfit v hv).typed.shape (hreg v' hv') e, fun _ _ _ => trivial⟩
  · exact hr.elim
  · exact hr.elim
  · exact absurd hs nofun
  · exact absurd hs nofun

theorem whole_of {Z : List Var} {o : Dict Var Val} {x : Crosscat} (h : CC Z x)
    (ho : ∀ v ∈ Dict.keys o, v ∈ columns x) : Whole Z o := by
  intro v hv y hy
  exact absurd hv (h.plain v (ho v (Dict.mem_keys_of_get? hy)))

theorem observe_step {x : Crosscat} (h : Good outputs τ T x) {r : RowId} {o i : Dict Var Val} {g g' : Rng}
    {c : Cgpm 3} (ho : ∀ v ∈ Dict.keys o, v ∈ outputs)
    (he : (cgpmI 3).observe r o i (whole x, g) = (.ok (), (c, g'))) :
    ∃ x', c = whole x' ∧ Good outputs τ (T.observe r o) x' := by
  obtain ⟨Z, hc⟩ := h.cc
  have K := cgpmTLaws Z 3
  have ho' : ∀ v ∈ Dict.keys o, v ∈ columns x := fun v hv => h.cols.mem_iff.2 (ho v hv)
  obtain ⟨k1, -, -, k2, k3, k4, k5⟩ := K.observe _ _ _ _ _ _ _ hc.reg (whole_of hc ho') he
  have hs := (cgpmLaws 3).shape_observe (K.inv _ hc.reg) r o i g
  rw [he] at hs
  obtain ⟨x', rfl, hc', hcol, ht⟩ := same_shape hc k1 hs
  have e := fun g r v => heldCell_eq K hc.reg (g := g) (r := r) (v := v)
  have e' := fun g r v => heldCell_eq K hc'.reg (g := g) (r := r) (v := v)
  refine ⟨x', rfl, ⟨Z, hc'⟩, by rw [hcol]; exact h.cols, fun g1 r' v hv => ?_, ht τ h.types, fun g1 r' v hv => ?_⟩
  · have hvc : v ∈ columns x := h.cols.mem_iff.2 hv
    have hcell := h.cells g1
    rw [e']
    unfold Ledger.observe
    dsimp only
    by_cases hr : r' = r
    · subst hr
      rcases hold : (cgpmTab Z 3).cell (whole x) r' v with _ | y
      · have h1 : T.cells r' v = none := by rw [← hcell r' v hv, e]; exact hold
        rw [if_pos ⟨rfl, h1⟩]
        rcases hg : Dict.get? o v with _ | y
        · exact k5 v (hc.plain v hvc) hold hg
        · exact k4 v (hc.mem_outputs hvc) y hold hg
      · have h1 : T.cells r' v = some y := by rw [← hcell r' v hv, e]; exact hold
        rw [if_neg (by simp [h1]), h1]
        exact k3 v y hold
    · rw [if_neg (by simp [hr]), ← hcell r' v hv, e]
      exact k2 r' v hr
  · by_cases hr : r' = r
    · exact .inl hr
    · right
      refine h.rows g1 r' v ?_
      rw [e'] at hv
      rw [e, ← k2 r' v hr]
      exact hv

theorem unobserve_step {x : Crosscat} (h : Good outputs τ T x) {r : RowId} {g g' : Rng}
    {a : Dict Var Val × Dict Var Val} {c : Cgpm 3}
    (he : (cgpmI 3).unobserve r (whole x, g) = (.ok a, (c, g'))) :
    ∃ x', c = whole x' ∧ Good outputs τ (T.unobserve r) x' := by
  obtain ⟨Z, hc⟩ := h.cc
  have K := cgpmTLaws Z 3
  have hp : (cgpmTab Z 3).present (whole x) r := by
    by_contra hn
    obtain ⟨e, h1⟩ := K.unobserve_absent _ r g hc.reg hn
    rw [he] at h1
    cases h1
  obtain ⟨ob, c1, h1, k1, -, -, k2, k3, -⟩ := K.unobserve _ r g hc.reg hp
  have hs := (cgpmLaws 3).shape_unobserve (K.inv _ hc.reg) r g
  rw [he] at h1 hs
  cases h1
  obtain ⟨x', rfl, hc', hcol, ht⟩ := same_shape hc k1 hs
  have e := fun g r v => heldCell_eq K hc.reg (g := g) (r := r) (v := v)
  have e' := fun g r v => heldCell_eq K hc'.reg (g := g) (r := r) (v := v)
  refine ⟨x', rfl, ⟨Z, hc'⟩, by rw [hcol]; exact h.cols, fun g1 r' v hv => ?_, ht τ h.types, fun g1 r' v hv => ?_⟩
  · rw [e']
    unfold Ledger.unobserve
    dsimp only
    by_cases hr : r' = r
    · rw [if_pos hr, hr]; exact k2 v
    · rw [if_neg hr, ← h.cells g1 r' v hv, e]; exact k3 r' v hr
  · rw [e'] at hv
    by_cases hr : r' = r
    · rw [hr] at hv; exact absurd (k2 v) hv
    · refine ⟨hr, h.rows g1 r' v ?_⟩
      rw [e, ← k3 r' v hr]; exact hv

theorem ask_step {x : Crosscat} (h : Good outputs τ T x) {c : Cgpm 3}
    (he : (cgpmSem 3).E (whole x) c) : ∃ x', c = whole x' ∧ Good outputs τ T x' := by
  obtain ⟨Z, hc⟩ := h.cc
  have K := cgpmTLaws Z 3
  obtain ⟨x', rfl, hc', hcol, ht⟩ := same_shape hc (K.reg_E _ _ he hc.reg) ((cgpmLaws 3).shape_E he).symm
  have e := fun g r v => heldCell_eq K hc.reg (g := g) (r := r) (v := v)
  have e' := fun g r v => heldCell_eq K hc'.reg (g := g) (r := r) (v := v)
  have hcell := K.cell_E _ _ he hc.reg
  refine ⟨x', rfl, ⟨Z, hc'⟩, by rw [hcol]; exact h.cols, fun g1 r' v hv => ?_, ht τ h.types, fun g1 r' v hv => ?_⟩
  · rw [e', ← hcell, ← e g1, h.cells g1 r' v hv]
  · refine h.rows g1 r' v ?_
    rw [e, hcell, ← e' g1]; exact hv

/-- The CrossCat of a new GibbsCrossCat is the one it was given. -/
theorem init_crosscat {ord : Orders} {x : Crosscat} {b : Bool} {d : Except Err Unit} {g g1 : Rng} {s : Gibbs}
    (h : CC Z x) (hi : Gibbs.init ord x b d g = (.ok s, g1)) : Kin x s.crosscat := by
  unfold Gibbs.init at hi
  rcases hv : validateCrosscat x with e | ⟨⟩
  · rw [hv] at hi; cases hi
  rw [hv] at hi
  dsimp only at hi
  rcases d with e | ⟨⟩
  · cases hi
  dsimp only at hi
  rcases hg : (do Gibbs.gridsRowDivide; Gibbs.gridsDistribution ord none : Py (Gibbs × Rng) Unit)
      (⟨x, b, []⟩, g) with ⟨e | ⟨⟩, s', g'⟩
  · rw [hg] at hi; cases hi
  rw [hg] at hi
  cases hi
  obtain ⟨⟨⟩, ⟨s1, g2⟩, h1, h2⟩ := run_bind hg
  have k1 := gridsRowDivide_pres (x0 := x) (⟨x, b, []⟩, g) _ _ (Kin.refl h) h1
  exact gridsDistribution_pres (x0 := x) (s1, g2) _ _ k1 h2

theorem infer_step {x : Crosscat} (h : Good outputs τ T x) {g : Rng} {c' : Cgpm 3 × Rng}
    {program : Cgpm 3 × Rng → Except Err (Cgpm 3 × Rng)} (hp : Infers outputs program)
    (he : program (whole x, g) = .ok c') : ∃ x', c'.1 = whole x' ∧ Good outputs τ T x' := by
  obtain ⟨ord, b, d, s, g1, clock, steps, w, h1, h2, h3, rfl⟩ := hp x g c' he
  obtain ⟨Z, hc⟩ := h.cc
  have k0 := init_crosscat hc h1
  have k1 : Kin x w.state.1.crosscat := returns_pres h3 (fun st hst => by
    have := h2 st hst
    revert this
    have hm := fun o => (h.cols.mem_iff (a := o)).symm
    cases st <;> simp only [Step.Moves, hm] <;> exact id) k0
  refine ⟨_, rfl, k1.cc, k1.cols.trans h.cols, fun g r v hv => ?_, k1.typesOf h.types, k1.among hc h.rows⟩
  rw [k1.cells g r v (h.cols.mem_iff.2 hv)]
  exact h.cells g r v hv

/-! ## Ensembles -/

theorem forall_chain {P Q : Cgpm 3 × Rng → Prop} {R : Cgpm 3 × Rng → Cgpm 3 × Rng → Prop}
    {cs cs' : List (Cgpm 3 × Rng)} (h : List.Forall₂ R cs cs') (hP : ∀ c ∈ cs, P c)
    (hR : ∀ c c', P c → R c c' → Q c') : ∀ c ∈ cs', Q c := by
  induction h with
  | nil => simp
  | cons h _ ih =>
    intro c hc
    rcases List.mem_cons.1 hc with rfl | hc
    · exact hR _ _ (hP _ (by simp)) h
    · exact ih (fun c hc => hP c (by simp [hc])) c hc

theorem forall₂_with {A B : Type} {P : A → Prop} {R Q : A → B → Prop} {l : List A} {l' : List B}
    (h : List.Forall₂ R l l') (hP : ∀ a ∈ l, P a) (hR : ∀ a b, P a → R a b → Q a b) : List.Forall₂ Q l l' := by
  induction h with
  | nil => exact .nil
  | cons h _ ih =>
    exact .cons (hR _ _ (hP _ List.mem_cons_self) h) (ih fun a ha => hP a (List.mem_cons_of_mem _ ha))

theorem mapHere_each {α : Type} (f : Py (Cgpm 3 × Rng) α) (cs : List (Cgpm 3 × Rng)) :
    List.Forall₂ (fun c c' => c' = c ∨ c' = (f c).2) cs (mapHere (cs.map fun _ => f) cs).2 := by
  induction cs with
  | nil => exact .nil
  | cons c cs ih =>
    have hr : ∀ cs : List (Cgpm 3 × Rng), List.Forall₂ (fun c c' => c' = c ∨ c' = (f c).2) cs cs := by
      intro cs
      induction cs with
      | nil => exact .nil
      | cons c cs ih => exact .cons (.inl rfl) ih
    rw [List.map_cons, mapHere]
    rcases hf : f c with ⟨e | a, c'⟩
    · exact .cons (.inr (by rw [hf])) (hr cs)
    · rcases hm : mapHere (cs.map fun _ => f) cs with ⟨e | as, cs'⟩ <;> rw [hm] at ih <;>
        exact .cons (.inr (by rw [hf])) ih

theorem toAll_each {α : Type} (mp : Bool) (f : Py (Cgpm 3 × Rng) α) (cs : List (Cgpm 3 × Rng)) :
    List.Forall₂ (fun c c' => c' = c ∨ c' = (f c).2) cs (toAll mp f cs).2 := by
  cases mp
  · exact mapHere_each f cs
  · change List.Forall₂ _ cs cs
    induction cs with
    | nil => exact .nil
    | cons c cs ih => exact .cons (.inl rfl) ih

/-- A job that changes nothing. -/
def Quiet {α : Type} (f : Py (Cgpm 3 × Rng) α) : Prop :=
  ∀ c g, (cgpmSem 3).Inv c → (cgpmSem 3).E c (f (c, g)).2.1

theorem quiet_step {α : Type} {f : Py (Cgpm 3 × Rng) α} (hf : Quiet f) {mp : Bool}
    {cs cs' : List (Cgpm 3 × Rng)} {res : Except Err (List α)} (h : toAll mp f cs = (res, cs'))
    (hP : ∀ c ∈ cs, Chain outputs types T c) : cs'.length = cs.length ∧ ∀ c ∈ cs', Chain outputs types T c := by
  have h1 := toAll_each mp f cs
  rw [h] at h1
  refine ⟨h1.length_eq.symm, forall_chain h1 hP fun c c' hc hcc => ?_⟩
  rcases hcc with rfl | rfl
  · exact hc
  · obtain ⟨x, τ, e, hx, hτ⟩ := hc
    obtain ⟨Z, hcc⟩ := hx.cc
    obtain ⟨c, g⟩ := c
    dsimp only at e
    subst e
    obtain ⟨x', e', hx'⟩ := ask_step hx (hf _ g ((cgpmTLaws Z 3).inv _ hcc.reg))
    exact ⟨x', τ, e', hx', hτ⟩

theorem quiet_lift {α β : Type} {e : Except Err α} {f : α → Py (Cgpm 3 × Rng) β} (hf : ∀ a, Quiet (f a)) :
    Quiet (do let a ← Py.lift e; f a) := by
  intro c g hc
  rcases e with e | a
  · exact (cgpmLaws 3).refl c hc
  · exact hf a c g hc

theorem quiet_bind {α β : Type} {m : Py (Cgpm 3 × Rng) α} {f : α → Py (Cgpm 3 × Rng) β} (hm : Quiet m)
    (hf : ∀ a, Quiet (f a)) : Quiet (m >>= f) := by
  intro c g hc
  have h1 := hm c g hc
  rw [Py.bind_apply]
  rcases hr : m (c, g) with ⟨e | a, c1, g1⟩ <;> rw [hr] at h1
  · exact h1
  · exact (cgpmLaws 3).trans _ _ _ h1 (hf a c1 g1 ((cgpmLaws 3).inv' h1))

theorem quiet_pure {α : Type} (a : α) : Quiet (pure a : Py (Cgpm 3 × Rng) α) :=
  fun c _ hc => (cgpmLaws 3).refl c hc

theorem quiet_throw {α : Type} (e : Err) : Quiet (Py.throw e : Py (Cgpm 3 × Rng) α) :=
  fun c _ hc => (cgpmLaws 3).refl c hc

theorem quiet_logpdf (args : List Arg) : Quiet (callLogpdf (cgpmI 3) args) := by
  unfold callLogpdf
  split
  · refine quiet_lift fun _ => quiet_lift fun _ => quiet_lift fun _ => quiet_lift fun _ => ?_
    exact fun c g hc => (cgpmLaws 3).E_logpdf hc _ _ _ _ g
  · exact quiet_throw _

theorem quiet_simulate (args : List Arg) : Quiet (callSimulate (cgpmI 3) args) := by
  unfold callSimulate
  split
  · refine quiet_lift fun _ => quiet_lift fun _ => quiet_lift fun _ => quiet_lift fun _ => quiet_lift fun _ => ?_
    exact fun c g hc => (cgpmLaws 3).E_simulate hc _ _ _ _ _ g
  · exact quiet_throw _

theorem quiet_bulk {α : Type} {call : List Arg → Py (Cgpm 3 × Rng) α} (hc : ∀ args, Quiet (call args))
    (args : List (Option (List Arg))) : Quiet (evaluateBulk call args) := by
  refine quiet_lift fun l => ?_
  induction l with
  | nil => exact quiet_pure _
  | cons a l ih => exact quiet_bind (hc a) fun _ => quiet_bind ih fun _ => quiet_pure _

theorem quiet_mapL {α β : Type} {f : α → Py (Cgpm 3 × Rng) β} (hf : ∀ a, Quiet (f a)) (l : List α) :
    Quiet (Py.mapL f l) := by
  induction l with
  | nil => exact quiet_pure _
  | cons a l ih => exact quiet_bind (hf a) fun _ => quiet_bind ih fun _ => quiet_pure _

theorem quiet_ok {α : Type} (e : Except Err α) : Quiet (Py.lift e : Py (Cgpm 3 × Rng) α) :=
  fun c _ hc => (cgpmLaws 3).refl c hc

theorem quiet_structural {α : Type} (f : Crosscat → Except Err α) : Quiet (structural f) :=
  fun c _ hc => (cgpmLaws 3).refl c hc

theorem quiet_sim (r : RowId) (t : List Var) (k i : Dict Var Val) (N : Option Nat) :
    Quiet ((cgpmI 3).simulate r t k i N) := fun _ g hc => (cgpmLaws 3).E_simulate hc _ _ _ _ _ g

theorem quiet_lp (r : RowId) (t k i : Dict Var Val) : Quiet ((cgpmI 3).logpdf r t k i) :=
  fun _ g hc => (cgpmLaws 3).E_logpdf hc _ _ _ _ g

theorem quiet_assert (p : Prop) [Decidable p] : Quiet (Py.assert p : Py (Cgpm 3 × Rng) Unit) := by
  unfold Py.assert
  split
  · exact quiet_pure _
  · exact quiet_throw _

theorem quiet_estimator (t0 t1 : List Var) (k : Option (Dict Var Val)) (N : Nat) :
    Quiet (Entropy.estimator (cgpmI 3) t0 t1 k N) := by
  unfold Entropy.estimator
  split
  · exact quiet_bind (quiet_assert _) fun _ => quiet_bind (quiet_sim _ _ _ _ _) fun _ => quiet_lift fun _ =>
      quiet_bind (quiet_mapL (fun _ => quiet_lp _ _ _ _) _) fun _ => quiet_pure _
  · exact quiet_bind (quiet_sim _ _ _ _ _) fun _ => quiet_lift fun _ => quiet_lift fun _ => quiet_lift fun _ =>
      quiet_bind (quiet_mapL (fun _ => quiet_lp _ _ _ _) _) fun _ =>
      quiet_bind (quiet_mapL (fun _ => quiet_lp _ _ _ _) _) fun _ =>
      quiet_bind (quiet_mapL (fun _ => quiet_lp _ _ _ _) _) fun _ => quiet_pure _

theorem quiet_mi (t0 t1 : List Var) (k : Option (Dict Var Val)) (m : Option (List Var)) (T N : Option Nat) :
    Quiet (Entropy.mutualInformation (cgpmI 3) t0 t1 k m T N) := by
  unfold Entropy.mutualInformation
  refine quiet_bind (fun c _ hc => (cgpmLaws 3).refl c hc) fun cg => quiet_lift fun _ => ?_
  dsimp only
  split
  · exact quiet_bind (quiet_estimator _ _ _ _) fun _ => quiet_ok _
  · exact quiet_bind (quiet_sim _ _ _ _ _) fun _ => quiet_lift fun _ => quiet_lift fun _ =>
      quiet_bind (quiet_mapL (fun _ => quiet_estimator _ _ _ _) _) fun _ => quiet_ok _

theorem mapHere_quiet {α : Type} {fs : List (Py (Cgpm 3 × Rng) α)} (hf : ∀ f ∈ fs, Quiet f) (cs : List (Cgpm 3 × Rng)) :
    List.Forall₂ (fun c c' => c' = c ∨ ((cgpmSem 3).Inv c.1 → (cgpmSem 3).E c.1 c'.1)) cs (mapHere fs cs).2 := by
  have hr : ∀ cs : List (Cgpm 3 × Rng), List.Forall₂ (fun c c' => c' = c ∨
      ((cgpmSem 3).Inv c.1 → (cgpmSem 3).E c.1 c'.1)) cs cs := by
    intro cs
    induction cs with
    | nil => exact .nil
    | cons c cs ih => exact .cons (.inl rfl) ih
  induction fs generalizing cs with
  | nil => exact hr cs
  | cons f fs ih =>
    cases cs with
    | nil => exact .nil
    | cons c cs =>
      have ih := ih (fun f hf' => hf f (List.mem_cons_of_mem _ hf')) cs
      have h0 : (cgpmSem 3).Inv c.1 → (cgpmSem 3).E c.1 (f c).2.1 := fun hc => hf f List.mem_cons_self c.1 c.2 hc
      rw [mapHere]
      rcases hfc : f c with ⟨e | a, c'⟩ <;> rw [hfc] at h0
      · exact .cons (.inr h0) (hr cs)
      · rcases hm : mapHere fs cs with ⟨e | as, cs'⟩ <;> rw [hm] at ih <;>
          exact .cons (.inr h0) ih

/-- Different jobs for the chains, none of which changes anything. -/
theorem mapper_step {α : Type} {fs : List (Py (Cgpm 3 × Rng) α)} (hf : ∀ f ∈ fs, Quiet f) {mp : Bool}
    {cs cs' : List (Cgpm 3 × Rng)} {res : Except Err (List α)} (h : mapper mp fs cs = (res, cs'))
    (hP : ∀ c ∈ cs, Chain outputs types T c) : cs'.length = cs.length ∧ ∀ c ∈ cs', Chain outputs types T c := by
  cases mp with
  | true => cases (congrArg (·.2) h : cs = cs'); exact ⟨rfl, hP⟩
  | false =>
    have h1 := mapHere_quiet hf cs
    rw [show mapHere fs cs = (res, cs') from h] at h1
    refine ⟨h1.length_eq.symm, forall_chain h1 hP fun c c' hc hcc => ?_⟩
    rcases hcc with rfl | hE
    · exact hc
    · obtain ⟨x, τ, e, hx, hτ⟩ := hc
      obtain ⟨Z, hcc⟩ := hx.cc
      rw [e] at hE
      obtain ⟨x', e', hx'⟩ := ask_step hx (hE ((cgpmTLaws Z 3).inv _ hcc.reg))
      exact ⟨x', τ, e', hx', hτ⟩

/-- Saving and loading. -/
theorem reload_step {env : Outside} {outs ins : List Var} {ts : List Dist} {n : Nat} {Cd Ci : List (List Var)}
    {rng rng' : Rng} {cs cs' : List (Cgpm 3 × Rng)}
    (h : fromMetadata env (toMetadata outs ins ts n Cd Ci cs) rng = (.ok cs', rng'))
    (hP : ∀ c ∈ cs, Chain outputs types T c) : cs'.length = cs.length ∧ (∀ c ∈ cs', Chain outputs types T c) ∧
      List.Forall₂ (fun c c' => (cgpmSem 3).E c.1 c'.1 ∧ c'.2 = rng') cs cs' := by
  unfold fromMetadata at h
  obtain ⟨junk, g1, h1, h⟩ := run_bind h
  rw [Py.get_bind] at h
  obtain ⟨h2, rfl⟩ : (cs.map fun c => (cgpmI 3).toMetadata c.1).mapM (fun blob => do
      let c ← (cgpmI 3).fromMetadata blob
      pure (c, g1)) = .ok cs' ∧ g1 = rng' := ⟨congrArg (·.1) h, congrArg (·.2) h⟩
  have h3 := (Ensemble.mapM_ok_iff _ _ _).1 h2
  rw [List.forall₂_map_left_iff] at h3
  have h4 : List.Forall₂ (fun (c c' : Cgpm 3 × Rng) => (cgpmI 3).fromMetadata ((cgpmI 3).toMetadata c.1) = .ok c'.1 ∧ c'.2 = g1) cs cs' := by
    refine h3.imp fun c c' hcc => ?_
    rcases hm : (cgpmI 3).fromMetadata ((cgpmI 3).toMetadata c.1) with e | d <;> rw [hm] at hcc
    · cases hcc
    · cases hcc; exact ⟨rfl, rfl⟩
  have key : ∀ c c' : Cgpm 3 × Rng, Chain outputs types T c → (cgpmI 3).fromMetadata ((cgpmI 3).toMetadata c.1) = .ok c'.1 →
      (cgpmSem 3).E c.1 c'.1 := by
    rintro c c' ⟨x, τ, e, hx, -⟩ hm
    obtain ⟨Z, hcc⟩ := hx.cc
    have hi : (cgpmSem 3).Inv c.1 := by rw [e]; exact (cgpmTLaws Z 3).inv _ hcc.reg
    have hcl : (cgpmI 3).fromMetadata ((cgpmI 3).toMetadata c.1) = .ok ((cgpmSem 3).strip c.1) := (cgpmLaws 3).clone c.1 hi
    rw [hcl] at hm
    rw [← Except.ok.inj hm]
    exact (cgpmLaws 3).strip c.1 hi
  refine ⟨h4.length_eq.symm, forall_chain h4 hP fun c c' hc hcc => ?_, ?_⟩
  · have hE := key c c' hc hcc.1
    obtain ⟨x, τ, e, hx, hτ⟩ := hc
    rw [e] at hE
    obtain ⟨x', e', hx'⟩ := ask_step hx hE
    exact ⟨x', τ, e', hx', hτ⟩
  · exact forall₂_with h4 hP fun c c' hc hcc => ⟨key c c' hc hcc.1, hcc.2⟩

end Cgpm2.Life
