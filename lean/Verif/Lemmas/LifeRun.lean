import Verif.Lemmas.LifeInit
import Verif.Props.Ensemble

/-!
# Calls of an ensemble (helpers)
-/

namespace Cgpm2.Life
open Spec Views Ensemble

variable {outputs : List Var} {types : List Dist} {T : Ledger}

theorem chain_observe {r : RowId} {o i : Dict Var Val} {c c' : Cgpm 3 × Rng} (hc : Chain outputs types T c)
    (ho : ∀ v ∈ Dict.keys o, v ∈ outputs) (h : (cgpmI 3).observe r o i c = (.ok (), c')) :
    Chain outputs types (T.observe r o) c' := by
  obtain ⟨x, τ, e, hx, hτ⟩ := hc
  obtain ⟨c, g⟩ := c
  obtain ⟨c', g'⟩ := c'
  dsimp only at e
  subst e
  obtain ⟨x', e', hx'⟩ := observe_step hx ho h
  exact ⟨x', τ, e', hx', hτ⟩

theorem chain_unobserve {r : RowId} {a : Dict Var Val × Dict Var Val} {c c' : Cgpm 3 × Rng}
    (hc : Chain outputs types T c) (h : (cgpmI 3).unobserve r c = (.ok a, c')) :
    Chain outputs types (T.unobserve r) c' := by
  obtain ⟨x, τ, e, hx, hτ⟩ := hc
  obtain ⟨c, g⟩ := c
  obtain ⟨c', g'⟩ := c'
  dsimp only at e
  subst e
  obtain ⟨x', e', hx'⟩ := unobserve_step hx h
  exact ⟨x', τ, e', hx', hτ⟩

theorem oneByOne_chain {A R : Type} {call : A → Py (Cgpm 3 × Rng) R} {enter : Ledger → A → Ledger} {l : List A}
    (hcall : ∀ a ∈ l, ∀ T c c' res, Chain outputs types T c → call a c = (.ok res, c') →
      Chain outputs types (enter T a) c')
    {c c' : Cgpm 3 × Rng} {rs : List R} (hc : Chain outputs types T c) (h : oneByOne call l c = (.ok rs, c')) :
    Chain outputs types (l.foldl enter T) c' := by
  induction l generalizing c T rs with
  | nil => cases h; exact hc
  | cons a l ih =>
    unfold oneByOne at h
    rcases h1 : call a c with ⟨e | res, c1⟩
    · rw [h1] at h; cases h
    rw [h1] at h
    dsimp only at h
    rcases h2 : oneByOne call l c1 with ⟨e | rs', c2⟩
    · rw [h2] at h; cases h
    rw [h2] at h
    cases h
    exact ih (fun b hb => hcall b (List.mem_cons_of_mem _ hb))
      (hcall a List.mem_cons_self T c c1 res hc h1) h2

/-- Jobs made of an argument list each (helper). -/
theorem perChain4 {A1 A2 A3 A4 B : Type} {e1 : Except Err A1} {e2 : Except Err A2} {e3 : Except Err A3}
    {e4 : Except Err A4} {job : A1 → A2 → A3 → A4 → Nat → B} {n : Nat} {fs : List B}
    (h : (do
      let a ← e1
      let b ← e2
      let c ← e3
      let d ← e4
      pure ((List.range n).map fun i => job a b c d i)) = .ok fs) {f : B} (hf : f ∈ fs) :
    ∃ p : A1 × A2 × A3 × A4 × Nat, f = job p.1 p.2.1 p.2.2.1 p.2.2.2.1 p.2.2.2.2 := by
  rcases e1 with _ | a <;> rcases e2 with _ | b <;> rcases e3 with _ | c <;> rcases e4 with _ | d <;> cases h
  obtain ⟨i, -, rfl⟩ := List.mem_map.1 hf
  exact ⟨(a, b, c, d, i), rfl⟩

theorem perChain5 {A1 A2 A3 A4 A5 B : Type} {e1 : Except Err A1} {e2 : Except Err A2} {e3 : Except Err A3}
    {e4 : Except Err A4} {e5 : Except Err A5} {job : A1 → A2 → A3 → A4 → A5 → Nat → B} {n : Nat} {fs : List B}
    (h : (do
      let a ← e1
      let b ← e2
      let c ← e3
      let d ← e4
      let e ← e5
      pure ((List.range n).map fun i => job a b c d e i)) = .ok fs) {f : B} (hf : f ∈ fs) :
    ∃ p : A1 × A2 × A3 × A4 × A5 × Nat, f = job p.1 p.2.1 p.2.2.1 p.2.2.2.1 p.2.2.2.2.1 p.2.2.2.2.2 := by
  rcases e1 with _ | a <;> rcases e2 with _ | b <;> rcases e3 with _ | c <;> rcases e4 with _ | d <;>
    rcases e5 with _ | e <;> cases h
  obtain ⟨i, -, rfl⟩ := List.mem_map.1 hf
  exact ⟨(a, b, c, d, e, i), rfl⟩

theorem leads_chain {k : Request} {cs cs' : List (Cgpm 3 × Rng)} (h : Request.Leads cs cs' k)
    (hk : k.Proper outputs) (hc : ∀ c ∈ cs, Chain outputs types T c) :
    cs'.length = cs.length ∧ ∀ c ∈ cs', Chain outputs types (k.enter T) c := by
  cases k with
  | observe r o i mp =>
    have h1 := (Props.C54_observe (cgpmI 3) r o i mp cs cs').1 h
    exact ⟨h1.length_eq.symm, forall_chain h1 hc fun c c' k1 k2 => chain_observe k1 hk k2⟩
  | observeBulk rows mp =>
    have h1 := (Props.C53_observe_bulk_no_inputs (cgpmI 3) rows mp cs cs').1 h
    refine ⟨h1.length_eq.symm, forall_chain h1 hc fun c c' k1 k2 => ?_⟩
    obtain ⟨rs, k2⟩ := k2
    exact oneByOne_chain (enter := fun T ro => T.observe ro.1 ro.2)
      (fun ro hro T c c' res e1 e2 => chain_observe e1 (hk ro hro) e2) k1 k2
  | unobserve r mp =>
    have h1 := (Props.C54_unobserve (cgpmI 3) r mp cs cs').1 h
    exact ⟨h1.length_eq.symm, forall_chain h1 hc fun c c' k1 ⟨a, k2⟩ => chain_unobserve k1 k2⟩
  | unobserveBulk rows mp =>
    have h1 := (Props.C53_unobserve_bulk (cgpmI 3) rows mp cs cs').1 h
    refine ⟨h1.length_eq.symm, forall_chain h1 hc fun c c' k1 k2 => ?_⟩
    obtain ⟨rs, k2⟩ := k2
    exact oneByOne_chain (enter := Ledger.unobserve) (fun r _ T c c' res e1 e2 => chain_unobserve e1 e2) k1 k2
  | transition program mp =>
    have h1 := (Props.C54_transition program mp cs cs').1 h
    refine ⟨h1.length_eq.symm, forall_chain h1 hc fun c c' k1 k2 => ?_⟩
    obtain ⟨x, τ, e, hx, hτ⟩ := k1
    obtain ⟨c, g⟩ := c
    dsimp only at e
    subst e
    obtain ⟨x', e', hx'⟩ := infer_step hx hk k2
    exact ⟨x', τ, e', hx', hτ⟩
  | logpdfScore mp =>
    obtain ⟨res, h⟩ := h
    exact quiet_step (f := fun c => ((cgpmI 3).logpdfScore c.1, c)) (fun c g hc => (cgpmLaws 3).refl c hc) h hc
  | logpdf r t k i mp =>
    obtain ⟨res, h⟩ := h
    exact quiet_step (quiet_logpdf _) h hc
  | logpdfBulk rs t k i mp =>
    obtain ⟨res, h⟩ := h
    exact quiet_step (quiet_bulk quiet_logpdf _) h hc
  | simulate r t k i N mp =>
    obtain ⟨res, h⟩ := h
    exact quiet_step (quiet_simulate _) h hc
  | simulateBulk rs t k i Ns mp =>
    obtain ⟨res, h⟩ := h
    exact quiet_step (quiet_bulk quiet_simulate _) h hc
  | simulateHeterogeneous rs t k i N mp =>
    obtain ⟨res, h⟩ := h
    unfold Ensemble.simulateHeterogeneous at h
    split at h
    · cases h; exact ⟨rfl, hc⟩
    · rename_i fs hfs
      refine mapper_step (fun f hf => ?_) h hc
      obtain ⟨i, rfl⟩ := perChain5 hfs hf
      exact quiet_simulate _
  | simulateHeterogeneousBulk rs t k i Ns mp =>
    obtain ⟨res, h⟩ := h
    unfold Ensemble.simulateHeterogeneousBulk at h
    split at h
    · cases h; exact ⟨rfl, hc⟩
    · rename_i fs hfs
      refine mapper_step (fun f hf => ?_) h hc
      obtain ⟨i, rfl⟩ := perChain5 hfs hf
      exact quiet_bulk quiet_simulate _
  | logpdfHeterogeneous rs t k i mp =>
    obtain ⟨res, h⟩ := h
    unfold Ensemble.logpdfHeterogeneous at h
    split at h
    · cases h; exact ⟨rfl, hc⟩
    · rename_i fs hfs
      refine mapper_step (fun f hf => ?_) h hc
      obtain ⟨i, rfl⟩ := perChain4 hfs hf
      exact quiet_logpdf _
  | logpdfHeterogeneousBulk rs t k i mp =>
    obtain ⟨res, h⟩ := h
    unfold Ensemble.logpdfHeterogeneousBulk at h
    split at h
    · cases h; exact ⟨rfl, hc⟩
    · rename_i fs hfs
      refine mapper_step (fun f hf => ?_) h hc
      obtain ⟨i, rfl⟩ := perChain4 hfs hf
      exact quiet_bulk quiet_logpdf _
  | sameColumn a b mp =>
    obtain ⟨res, h⟩ := h
    exact quiet_step (quiet_structural _) h hc
  | sameColumnPairwise outputs mp =>
    obtain ⟨res, h⟩ := h
    exact quiet_step (quiet_structural _) h hc
  | sameRow a r s mp =>
    obtain ⟨res, h⟩ := h
    exact quiet_step (quiet_structural _) h hc
  | sameRowPairwise a mp =>
    obtain ⟨res, h⟩ := h
    exact quiet_step (quiet_structural _) h hc
  | mutualInformation t0 t1 k m T N mp =>
    obtain ⟨res, h⟩ := h
    exact quiet_step (quiet_mi _ _ _ _ _ _) h hc
  | reload env outs ins ts n Cd Ci rng =>
    obtain ⟨rng', h⟩ := h
    have h1 := reload_step h hc
    exact ⟨h1.1, h1.2.1⟩

theorem life_chain {calls : List Request} {cs cs' : List (Cgpm 3 × Rng)} (h : Life calls cs cs')
    (hk : ∀ k ∈ calls, k.Proper outputs) (hc : ∀ c ∈ cs, Chain outputs types T c) :
    cs'.length = cs.length ∧ ∀ c ∈ cs', Chain outputs types (calls.foldl Request.enter T) c := by
  induction h generalizing T with
  | nil cs => exact ⟨rfl, hc⟩
  | cons h _ ih =>
    obtain ⟨l1, h1⟩ := leads_chain h (hk _ List.mem_cons_self) hc
    obtain ⟨l2, h2⟩ := ih (fun k hk' => hk k (List.mem_cons_of_mem _ hk')) h1
    exact ⟨l2.trans l1, h2⟩

theorem mem_zip_columns {x : Crosscat} (hp : (columns x).Perm outputs) {od : Var × Dist}
    (h : od ∈ outputs.zip types) : od.1 ∈ columns x := by
  obtain ⟨o, d⟩ := od
  exact hp.mem_iff.2 (List.of_mem_zip h).1

theorem chain_keeps {c : Cgpm 3 × Rng} (h : Chain outputs types T c) : Keeps outputs types T c := by
  obtain ⟨x, τ, e, hx, hτ⟩ := h
  obtain ⟨Z, hcc⟩ := hx.cc
  obtain ⟨c, g⟩ := c
  dsimp only at e
  subst e
  refine ⟨x, g, rfl, hcc.views, hx.cols, fun od hod => ?_, hx.cells, hx.rows⟩
  have hoc := mem_zip_columns hx.cols hod
  obtain ⟨b, h1, h2, -⟩ := column_prims hcc hoc
  refine ⟨⟨b, h1, h2⟩, fun p hp => ?_⟩
  obtain ⟨p', e1, e2⟩ := hτ od hod
  exact ofType_of e2 ((hx.types od.1 hoc p hp).trans e1)

theorem made_chain {x : Crosscat} {g : Rng} {q : List (List Nat)} (ht : ∀ d ∈ types, ValidType d)
    (hne : outputs ≠ []) (hl : outputs.length = types.length) (hs : Splits outputs.length q)
    (hm : Made outputs types q x) : Chain outputs types .empty (whole x, g) := by
  obtain ⟨hx, hT, hplain, hn⟩ := made_tidy ht hne hs hm
  have hcc := cc_of_tidy hT hx hplain
  have hp := made_columns ht hs hm
  have hd := made_declared ht hne hl hs hm
  obtain ⟨τ, h1, h2⟩ := Kin.exists_types hcc
  refine ⟨x, τ, rfl, ⟨⟨_, hcc⟩, hp, fun g r v _ => hn r g v, h1, fun g r v h => absurd (hn r g v) h⟩,
    fun od hod => ?_⟩
  obtain ⟨b, h3, h4⟩ := h2 od.1 (mem_zip_columns hp hod)
  exact ⟨b, h4, (hd od hod).2 b h3⟩

/-! ## Making one -/

theorem randint_run (g : Rng) : ∃ k : Nat, (k : Int) = drawnInt g 0 ∧ randint g = (.ok k, g.next.2) :=
  ⟨_, drawnVar_eq g, rfl⟩

theorem seeds_run (l : List Nat) (g : Rng) : Py.mapL (fun _ => randint) l g =
    (.ok ((List.range l.length).map fun n => (drawnInt g n).toNat), fun k => g (k + l.length)) := by
  induction l generalizing g with
  | nil => rfl
  | cons a l ih =>
    obtain ⟨k, h1, h2⟩ := randint_run g
    rw [Py.mapL, Py.bind_apply, h2]
    dsimp only
    rw [Py.bind_apply, ih]
    have e : (drawnInt g 0).toNat = k := by rw [← h1]; rfl
    rw [List.length_cons, List.range_succ_eq_map, List.map_cons, e, List.map_map]
    refine Prod.ext rfl (funext fun n => ?_)
    change g (n + l.length + 1) = g (n + (l.length + 1))
    rw [Nat.add_assoc]

theorem init_run {env : Outside} {Cd Ci : List (List Var)} {chains : Nat} {g g' : Rng}
    {cs : List (Cgpm 3 × Rng)} : Ensemble.init env outputs [] types chains Cd Ci g = (.ok cs, g') ↔
      outputs.length = types.length ∧ g' = (fun k => g (k + chains)) ∧
      List.Forall₂ (fun n c => makeChain env outputs types Cd Ci (drawnInt g n).toNat = .ok c)
        (List.range chains) cs := by
  have key : Ensemble.init env outputs [] types chains Cd Ci g =
      if outputs.length = types.length then
        (((List.range chains).map fun n => (drawnInt g n).toNat).mapM (makeChain env outputs types Cd Ci),
          fun k => g (k + chains))
      else (.error .assertionError, g) := by
    unfold Ensemble.init
    by_cases hl : outputs.length = types.length
    · rw [if_pos hl]
      have h1 : (Py.assert (outputs.length = types.length) : Py Rng Unit) g = (.ok (), g) := by
        unfold Py.assert; simp [hl]
      have h2 : (Py.assert (([] : List Var) = []) : Py Rng Unit) g = (.ok (), g) := by
        unfold Py.assert; simp
      rw [Py.bind_apply, h1]
      dsimp only
      rw [Py.bind_apply, h2]
      dsimp only
      rw [Py.bind_apply, seeds_run, List.length_range]
      rfl
    · rw [if_neg hl]
      have h1 : (Py.assert (outputs.length = types.length) : Py Rng Unit) g = (.error .assertionError, g) := by
        unfold Py.assert; simp [hl]
      rw [Py.bind_apply, h1]
  rw [key]
  by_cases hl : outputs.length = types.length
  · rw [if_pos hl, Prod.mk.injEq, Cgpm2.mapM_ok_iff, List.forall₂_map_left_iff]
    exact ⟨fun h => ⟨hl, h.2.symm, h.1⟩, fun h => ⟨h.2.2, h.2.1.symm⟩⟩
  · rw [if_neg hl]
    exact ⟨nofun, fun h => absurd h.1 hl⟩

theorem makeChain_ok {env : Outside} {Cd Ci : List (List Var)} {seed : Nat} {c : Cgpm 3 × Rng} :
    makeChain env outputs types Cd Ci seed = .ok c ↔
      ∃ x, makeRandomCrosscat env outputs types Cd Ci (env.prng seed) = (.ok x, c.2) ∧ c.1 = whole x := by
  unfold makeChain
  rcases makeRandomCrosscat env outputs types Cd Ci (env.prng seed) with ⟨e | x, g⟩
  · exact ⟨nofun, fun ⟨_, h, _⟩ => nomatch h⟩
  · constructor
    · intro h; cases h; exact ⟨x, rfl, rfl⟩
    · rintro ⟨x', h, e⟩
      obtain ⟨c, g'⟩ := c
      dsimp only at h e
      cases h
      rw [e]

/-! ## When it returns -/

theorem forall₂_of {A B : Type} {R : A → B → Prop} {l : List A} (h : ∀ a ∈ l, ∃ b, R a b) :
    ∃ bs, List.Forall₂ R l bs := by
  induction l with
  | nil => exact ⟨[], .nil⟩
  | cons a l ih =>
    obtain ⟨b, hb⟩ := h a List.mem_cons_self
    obtain ⟨bs, hbs⟩ := ih fun a ha => h a (List.mem_cons_of_mem _ ha)
    exact ⟨b :: bs, .cons hb hbs⟩

theorem items_run {α : Type} {l : List α} {block : List Nat} (hb : ∀ i ∈ block, i < l.length) (d : α) :
    block.mapM (Ensemble.item l) = .ok (block.map fun i => (l[i]?).getD d) := by
  rw [Cgpm2.mapM_ok_iff, List.forall₂_map_right_iff, List.forall₂_same]
  intro i hi
  rw [item_ok, List.getElem?_eq_getElem (hb i hi)]
  rfl

theorem makeBlock_run {block : List Nat} (ht : ∀ d ∈ types, ValidType d) (hl : outputs.length = types.length)
    (hb : ∀ i ∈ block, i < outputs.length) (hn : (block.map fun i => (outputs[i]?).getD 0).Nodup) (g : Rng) :
    ∃ ps, makeBlock outputs types block g = (.ok (freshView (drawnVar g) ps), g.next.2) ∧
      List.Forall₂ (MadeOf outputs types) block ps := by
  have h1 := items_run (l := outputs) hb 0
  have h2 := items_run (l := types) (by rw [← hl]; exact hb) ⟨"", none⟩
  obtain ⟨ps, h3⟩ := forall₂_of (R := fun od p => makeRandomPrimitive od.1 od.2 = .ok p)
    (l := (block.map fun i => (outputs[i]?).getD 0).zip (block.map fun i => (types[i]?).getD ⟨"", none⟩))
    (fun od hod => by
      obtain ⟨o, d⟩ := od
      obtain ⟨i, hi, rfl⟩ := List.mem_map.1 (List.of_mem_zip hod).2
      refine primitive_total (ht _ ?_)
      have hi : i < types.length := hl ▸ hb i hi
      dsimp only
      rw [List.getElem?_eq_getElem hi]
      exact List.getElem_mem hi)
  have hmade : List.Forall₂ (MadeOf outputs types) block ps := by
    refine List.Forall₂.imp ?_ (forall₂_zip ((Cgpm2.mapM_ok_iff _ _ _).1 h1) ((Cgpm2.mapM_ok_iff _ _ _).1 h2) h3)
    rintro i p ⟨o, d, k1, k2, k3⟩
    exact ⟨o, d, item_ok.1 k1, item_ok.1 k2, k3⟩
  have hval : Product.init primI ps = .ok ⟨ps⟩ := by
    unfold Product.init
    rw [← made_outputs ht hmade] at hn
    rw [validate_of_nodup (I := primI) (fun p hp => by
      obtain ⟨i, o, d, -, k2, k3⟩ := mem_made hmade hp
      exact (primitive_ok (ht d (List.mem_of_getElem? k2)) k3).2.2.1) hn]
    rfl
  refine ⟨ps, ?_, hmade⟩
  have h3 := (Cgpm2.mapM_ok_iff _ _ _).2 h3
  unfold makeBlock
  rw [h1, h2]
  change makeRandomView _ _ g = _
  unfold makeRandomView
  have hr : randint g = (.ok ⌊g.uniform.1 * (2 ^ 32 - 1)⌋.toNat, g.next.2) := rfl
  rw [Py.bind_apply, hr]
  dsimp only
  rw [h3]
  change (Py.lift (Product.init primI ps) >>= _) _ = _
  rw [hval]
  rfl

theorem mapBlocks_run {q : List (List Nat)} (ht : ∀ d ∈ types, ValidType d) (hl : outputs.length = types.length)
    (hb : ∀ b ∈ q, (∀ i ∈ b, i < outputs.length) ∧ (b.map fun i => (outputs[i]?).getD 0).Nodup) (g : Rng) :
    ∃ vs, Py.mapL (makeBlock outputs types) q g = (.ok vs, fun k => g (k + q.length)) ∧
      List.Forall₂ (fun b v => ∃ z ps, v = freshView z ps ∧ List.Forall₂ (MadeOf outputs types) b ps) q vs ∧
      vs.map (fun v => ((cgpmI 2).outputs v).headD 0) = (List.range q.length).map (drawnInt g) := by
  induction q generalizing g with
  | nil => exact ⟨[], rfl, .nil, rfl⟩
  | cons b q ih =>
    obtain ⟨hb1, hb2⟩ := hb b List.mem_cons_self
    obtain ⟨ps, h1, h2⟩ := makeBlock_run ht hl hb1 hb2 g
    obtain ⟨vs, h3, h4, h5⟩ := ih (fun b hb' => hb b (List.mem_cons_of_mem _ hb')) g.next.2
    refine ⟨freshView (drawnVar g) ps :: vs, ?_, .cons ⟨_, ps, rfl, h2⟩ h4, ?_⟩
    · refine (mapL_cons h1 h3).trans (Prod.ext rfl (funext fun n => ?_))
      change g (n + q.length + 1) = g (n + (q.length + 1))
      rw [Nat.add_assoc]
    · rw [List.map_cons, h5, List.length_cons, List.range_succ_eq_map, List.map_cons, List.map_map]
      congr 1
      exact drawnVar_eq g

theorem splits_length {N : Nat} {q : List (List Nat)} (h : Splits N q) : q.length ≤ N := by
  have h1 : q.length ≤ q.flatten.length := by
    rw [List.length_flatten]
    calc q.length = (q.map fun _ => 1).sum := by simp
      _ ≤ (q.map List.length).sum := List.sum_le_sum fun b hb => List.length_pos_iff.2 (h.nonempty b hb)
  have h2 := h.covers.length_eq
  rw [List.length_range] at h2
  omega

theorem blocks_run {env : Outside} (hs : SaneOutside env) (ht : ∀ d ∈ types, ValidType d)
    (hl : outputs.length = types.length) (hn : outputs.Nodup) {g g1 : Rng} {Cd Ci : List (List Var)} {q : List (List Nat)}
    (hp : makeRandomPartition env outputs.length (env.gamma (g 0)) Cd Ci g.next.2 = (.ok q, g1))
    (hd : DrawsApart outputs.length g1 outputs) :
    ∃ x g', makeRandomCrosscat env outputs types Cd Ci g = (.ok x, g') := by
  have hsp : Splits outputs.length q := partition_ok hs (hs.gamma _) hp
  have hmap : (q.flatten.map fun i => (outputs[i]?).getD 0).Perm outputs := by
    refine (hsp.covers.map _).trans ?_
    rw [map_range_getD]
  have hb : ∀ b ∈ q, (∀ i ∈ b, i < outputs.length) ∧ (b.map fun i => (outputs[i]?).getD 0).Nodup := by
    intro b hb
    refine ⟨fun i hi => List.mem_range.1 (hsp.covers.mem_iff.1 (List.mem_flatten.2 ⟨b, hb, hi⟩)), ?_⟩
    exact (hmap.nodup_iff.2 hn).sublist ((List.sublist_flatten_of_mem hb).map _)
  obtain ⟨vs, h3, h4, h5⟩ := mapBlocks_run ht hl hb g1
  have hcols : (vs.flatMap viewColumns).Perm outputs := by
    rw [views_columns ht h4]; exact hmap
  have hlen := splits_length hsp
  have hnd : (vs.flatMap (cgpmI 2).outputs).Nodup := by
    refine ((heads_perm (cgpmI 2).outputs vs fun v hv => ?_).nodup_iff).2 ?_
    · obtain ⟨b, -, z, ps, rfl, -⟩ := views_mem h4 hv
      exact List.cons_ne_nil _ _
    · rw [h5]
      refine List.nodup_append.2 ⟨?_, hcols.nodup_iff.2 hn, ?_⟩
      · refine List.Nodup.map_on (fun m hm n hn' e => ?_) List.nodup_range
        rw [List.mem_range] at hm hn'
        rcases Nat.lt_trichotomy m n with h | h | h
        · exact absurd e (hd.2 n (by omega) m h)
        · exact h
        · exact absurd e.symm (hd.2 m (by omega) n h)
      · rintro a ha b hb' rfl
        obtain ⟨n, hn', rfl⟩ := List.mem_map.1 ha
        rw [List.mem_range] at hn'
        exact hd.1 n (by omega) (hcols.mem_iff.1 hb')
  have hval : Product.init (cgpmI 2) vs = .ok ⟨vs⟩ := by
    have hin : ∀ v ∈ vs, (cgpmI 2).inputs v = [] := by
      intro v hv
      obtain ⟨b, -, z, ps, rfl, hps⟩ := views_mem h4 hv
      change ([] : List Var) ++ ps.flatMap Prim.inputs = []
      rw [List.nil_append, List.flatMap_eq_nil_iff]
      intro p hp
      obtain ⟨i, o, d, -, k2, k3⟩ := mem_made hps hp
      exact (primitive_ok (ht d (List.mem_of_getElem? k2)) k3).2.2.1
    unfold Product.init
    rw [validate_of_nodup (I := cgpmI 2) hin hnd]
    rfl
  refine ⟨⟨vs⟩, fun k => g1 (k + q.length), ?_⟩
  unfold makeRandomCrosscat
  have ha : drawAlpha env g = (.ok (env.gamma (g 0)), g.next.2) := rfl
  rw [Py.bind_apply, ha]
  dsimp only
  rw [Py.bind_apply, hp]
  dsimp only
  rw [Py.bind_apply, h3]
  dsimp only
  rw [hval]
  rfl

/-- Constrained columns. -/

theorem crosscat_run {env : Outside} (hs : SaneOutside env) (ht : ∀ d ∈ types, ValidType d)
    (hl : outputs.length = types.length) (hn : outputs.Nodup) {g : Rng}
    (hd : DrawsApart outputs.length (fun n => g (n + outputs.length + 1)) outputs) :
    ∃ x g', makeRandomCrosscat env outputs types [] [] g = (.ok x, g') := by
  obtain ⟨q, h1, h2⟩ := generate_spec (hs.gamma (g 0)) outputs.length g.next.2
  refine blocks_run hs ht hl hn (q := q) (g1 := fun k => g.next.2 (k + outputs.length)) ?_ hd
  unfold makeRandomPartition
  rw [if_pos ⟨rfl, rfl⟩]
  exact h2

theorem constrained_run {env : Outside} (hs : SaneOutside env) (ht : ∀ d ∈ types, ValidType d)
    (hl : outputs.length = types.length) (hn : outputs.Nodup) {g g1 : Rng} {Cd Ci : List (List Var)}
    (hc : ¬ (Cd = [] ∧ Ci = [])) {l : List Int}
    (h : env.crpConstrained outputs.length (env.gamma (g 0)) Cd Ci g.next.2 = (.ok l, g1))
    (hd : DrawsApart outputs.length g1 outputs) :
    ∃ x g', makeRandomCrosscat env outputs types Cd Ci g = (.ok x, g') := by
  refine blocks_run hs ht hl hn (q := Cpp.partitionToBlocks (env.unique l) l) (g1 := g1) ?_ hd
  unfold makeRandomPartition
  rw [if_neg hc, Py.bind_apply, h]
  rfl

theorem together_iff {q : List (List Nat)} {x : Crosscat} (ht : ∀ d ∈ types, ValidType d)
    (hn : outputs.Nodup) (hm : Made outputs types q x) (hb : ∀ b ∈ q, ∀ i ∈ b, i < outputs.length)
    {i j : Nat} (hi : i < outputs.length) (hj : j < outputs.length) :
    Together x outputs[i] outputs[j] ↔ ∃ b ∈ q, i ∈ b ∧ j ∈ b := by
  have hmem : ∀ {b : List Nat} {z ps}, b ∈ q → List.Forall₂ (MadeOf outputs types) b ps →
      ∀ {i : Nat} (hi : i < outputs.length), outputs[i] ∈ viewColumns (freshView z ps) ↔ i ∈ b := by
    intro b z ps hbq hps i hi
    change outputs[i] ∈ ps.flatMap Prim.outputs ↔ _
    rw [made_outputs ht hps, List.mem_map]
    constructor
    · rintro ⟨k, hk, e⟩
      have hk' := hb b hbq k hk
      rw [List.getElem?_eq_getElem hk', Option.getD_some] at e
      rwa [← (List.Nodup.getElem_inj_iff hn).1 e]
    · intro h
      exact ⟨i, h, by rw [List.getElem?_eq_getElem hi]; rfl⟩
  constructor
  · rintro ⟨v, hv, h1, h2⟩
    obtain ⟨b, hb', z, ps, rfl, hps⟩ := made_view hm hv
    exact ⟨b, hb', (hmem hb' hps hi).1 h1, (hmem hb' hps hj).1 h2⟩
  · rintro ⟨b, hb', h1, h2⟩
    have : ∃ v ∈ x.cgpms, ∃ z ps, v = freshView z ps ∧ List.Forall₂ (MadeOf outputs types) b ps := by
      have h := hm.views
      obtain ⟨k, hk, rfl⟩ := List.getElem_of_mem hb'
      have hk2 : k < x.cgpms.length := h.length_eq ▸ hk
      exact ⟨x.cgpms[k], List.getElem_mem _, h.get hk hk2⟩
    obtain ⟨v, hv, z, ps, rfl, hps⟩ := this
    exact ⟨_, hv, (hmem hb' hps hi).2 h1, (hmem hb' hps hj).2 h2⟩

/-! ## Any history -/

theorem init_chains {env : Outside} (hs : SaneOutside env) {outputs : List Var} {types : List Dist}
    (ht : ∀ d ∈ types, ValidType d) (hne : outputs ≠ []) {chains : Nat}
    {Cd Ci : List (List Var)} {g g' : Rng} {cs : List (Cgpm 3 × Rng)}
    (h : Ensemble.init env outputs [] types chains Cd Ci g = (.ok cs, g')) :
    outputs.length = types.length ∧ cs.length = chains ∧ ∀ c ∈ cs, Chain outputs types .empty c := by
  obtain ⟨hl, -, h1⟩ := init_run.1 h
  refine ⟨hl, by rw [← h1.length_eq, List.length_range], fun c hc => ?_⟩
  obtain ⟨i, hi, rfl⟩ := List.getElem_of_mem hc
  have h2 := h1.get (i := i) (by rw [h1.length_eq]; exact hi) hi
  obtain ⟨x, h3, h4⟩ := makeChain_ok.1 h2
  obtain ⟨q, h5, h6, -⟩ := crosscat_ok hs h3
  have := made_chain (g := (cs.get ⟨i, hi⟩).2) ht hne hl h5 h6
  rw [← h4] at this
  exact this

theorem life_chains {env : Outside} (hs : SaneOutside env) {outputs : List Var} {types : List Dist}
    (ht : ∀ d ∈ types, ValidType d) (hne : outputs ≠ []) {chains : Nat}
    {Cd Ci : List (List Var)} {g g' : Rng} {cs cs' : List (Cgpm 3 × Rng)}
    (h : Ensemble.init env outputs [] types chains Cd Ci g = (.ok cs, g')) {calls : List Request}
    (hk : ∀ k ∈ calls, k.Proper outputs) (hc : Life calls cs cs') :
    outputs.length = types.length ∧ cs'.length = chains ∧ ∀ c ∈ cs', Chain outputs types (ledger calls) c := by
  obtain ⟨h1, h2, h3⟩ := init_chains hs ht hne h
  obtain ⟨h4, h5⟩ := life_chain hc hk h3
  exact ⟨h1, h4.trans h2, h5⟩

end Cgpm2.Life
