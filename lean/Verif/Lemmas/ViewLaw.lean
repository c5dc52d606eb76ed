import Verif.Lemmas.ViewTotal
import Verif.Lemmas.Clusterings
import Verif.Lemmas.HypersKept
import Verif.Lemmas.EditPrims
import Verif.Lemmas.RowLaw

/-!
# The scores of a view before and after a column is moved (helpers)
-/

namespace Cgpm2.Views
open Spec Cpp

variable {Z : List Var}

/-! ## Scores as sums over primitives -/

theorem sum_flatMap {α β : Type} (l : List α) (f : α → List β) (s : β → ℝ) :
    ((l.flatMap f).map s).sum = (l.map fun a => ((f a).map s).sum).sum := by
  induction l with
  | nil => rfl
  | cons a l ih => simp [ih]

theorem product_prims (p : Product (Cgpm 0)) : primsIn 1 (.product p : Node (Cgpm 0)) = p.cgpms := by
  exact List.flatMap_singleton' (show List Prim from p.cgpms)

/-- The components of a view. -/
theorem comp_mem {v : View} {m : FlexMix (Cgpm 1)} {p : Product (Cgpm 0)} (hf : Flat v m p) (h : (cgpmTab Z 2).Reg v)
    {c : Cgpm 1} (hc : c ∈ Dict.values m.array.cgpms) :
    ∃ q : Product (Cgpm 0), c = (.product q : Node (Cgpm 0)) ∧ (cgpmTab Z 1).Reg (.product q : Node (Cgpm 0)) := by
  obtain ⟨⟨k, c'⟩, hkc, rfl⟩ := List.mem_map.1 hc
  obtain ⟨q, h1, h2⟩ := part_of hf h k
  have hreg := h
  rw [hf.eq] at hreg
  have hreg : MixReg _ _ _ _ _ _ _ m := hreg
  unfold FlexArray.comp at h1
  rw [Dict.get?_of_mem hreg.inv.2.1.2.2.1 hkc] at h1
  exact ⟨q, h1, h2.reg⟩

/-- The score of a view is the sum of the scores of its primitives. -/
theorem view_score {v : View} (h : (cgpmTab Z 2).Reg v) (hv : IsView v) :
    (cgpmI 2).logpdfScore v = .ok (.fin ((primsIn 2 v).map Prim.score).sum) := by
  obtain ⟨m, p, hf⟩ := flat_of_reg h hv
  have hreg := h
  rw [hf.eq] at hreg
  have hreg : MixReg _ _ _ _ _ _ _ m := hreg
  have hprod : ∀ q : Product (Cgpm 0), (cgpmTab Z 1).Reg (.product q : Node (Cgpm 0)) →
      (cgpmI 1).logpdfScore (.product q : Node (Cgpm 0)) =
        .ok (.fin ((primsIn 1 (.product q : Node (Cgpm 0))).map Prim.score).sum) := by
    intro q hq
    rw [product_prims]
    change (do let l ← q.cgpms.mapM (cgpmI 0).logpdfScore; pure (Fl.sum l) : Except Err Fl) = _
    have e0 : q.cgpms.mapM (cgpmI 0).logpdfScore = .ok (q.cgpms.map fun b => Fl.fin (Prim.score b)) :=
      mapM_ok _ _ _ fun b hb => Prim.logpdfScore_eq (hq.1 b hb).1.1 (hq.1 b hb).1.2
    rw [e0]
    exact congrArg Except.ok (fl_sum_fin (show List Prim from q.cgpms) Prim.score)
  have hbase : ((primsIn 1 m.array.base).map Prim.score).sum = 0 := by
    obtain ⟨hb1, -, hb3⟩ := flexMix_base (cgpmLaws 1) (cgpmTLaws Z 1) (m := m) hreg
    rw [hf.base] at hb1 hb3 ⊢
    rw [product_prims]
    refine List.sum_eq_zero fun y hy => ?_
    obtain ⟨b, hb, rfl⟩ := List.mem_map.1 hy
    obtain ⟨o, ho⟩ := (hb1.1 b hb).1.1.out
    refine Prim.score_empty (hb1.1 b hb).1.1 (data_nil_of_fresh (Z := Z) ho fun r u => ?_)
    by_cases hu : u = o
    · subst hu
      exact (ProdTab.cell_of_mem (cgpmTLaws Z 0) hb1.1 hf.nodup hb (by change u ∈ Prim.outputs b; simp [ho]) r).symm.trans (hb3 r u)
    · simp [primTab, ho, hu]
  have hdiv : m.rowDivide.logpdfScore = .ok (.fin m.rowDivide.score) :=
    Prim.logpdfScore_eq hreg.inv.1.1 hreg.inv.1.2
  rw [hf.eq]
  change (do
    let scoreZ ← m.rowDivide.logpdfScore
    let scoreX ← (do
      let l ← (Dict.values m.array.cgpms).mapM (cgpmI 1).logpdfScore
      pure (Fl.sum l) : Except Err Fl)
    pure (scoreZ + scoreX) : Except Err Fl) = .ok (.fin ((m.rowDivide ::
      ((Dict.values m.array.cgpms).flatMap (primsIn 1) ++ primsIn 1 m.array.base)).map Prim.score).sum)
  rw [hdiv, mapM_ok _ _ (fun c => Fl.fin ((primsIn 1 c).map Prim.score).sum) fun c hc => by
    obtain ⟨q, rfl, hq⟩ := comp_mem hf h hc
    exact hprod q hq]
  rw [List.map_cons, List.sum_cons, List.map_append, List.sum_append, hbase, add_zero, sum_flatMap]
  change Except.ok (Fl.fin m.rowDivide.score + Fl.sum _) = _
  rw [fl_sum_fin (Dict.values m.array.cgpms) fun c => ((primsIn 1 c).map Prim.score).sum]
  rfl

/-- The score of a column is the sum of the scores of its primitives. -/
theorem dataLogp_eq {v : View} (h : (cgpmTab Z 2).Reg v) {o : Var} (ho : o ∈ (cgpmI 2).outputs v) :
    dataLogp v o = .ok (.fin (((primsIn 2 v).filter fun p => decide (p.outputs = [o])).map Prim.score).sum) := by
  obtain ⟨refs, h1, h2⟩ := (cgpm_walk Z 2 v h).walk o ho
  have hg : ∀ p ∈ refs.objs, p.logpdfScore = .ok (.fin p.score) := by
    intro p hp
    rw [h2.objs] at hp
    have := (reg_prims 2 v h p (List.mem_of_mem_filter hp)).1
    exact Prim.logpdfScore_eq this.1 this.2
  unfold dataLogp
  rw [h1]
  change (do let scores ← refs.objs.mapM Prim.logpdfScore; pure (Fl.sum scores)) = _
  rw [mapM_ok _ _ _ hg]
  change Except.ok _ = _
  rw [fl_sum_fin, h2.objs]
  rfl

theorem sum_split (l : List Prim) (P : Prim → Prop) [DecidablePred P] :
    (l.map Prim.score).sum = ((l.filter fun p => decide (P p)).map Prim.score).sum +
      ((l.filter fun p => decide (¬ P p)).map Prim.score).sum := by
  induction l with
  | nil => simp
  | cons p l ih =>
    by_cases hp : P p
    · simp [hp, ih, add_assoc]
    · simp [hp, ih]; ring

/-! ## Removing a column -/

theorem remove_prims {v v' : View} {m : FlexMix (Cgpm 1)} {p : Product (Cgpm 0)} (hf : Flat v m p)
    (h : (cgpmTab Z 2).Reg v) {o : Var} (ho : removeCgpm 2 v o = .ok v') :
    primsIn 2 v' = (primsIn 2 v).filter fun p => decide (¬ p.outputs = [o]) := by
  have hprod : ∀ (q : Product (Cgpm 0)) c', (q.cgpms.flatMap (cgpmI 0).outputs).Nodup →
      (∀ b ∈ q.cgpms, ∃ a, Prim.outputs b = [a]) →
      removeCgpm 1 (.product q : Node (Cgpm 0)) o = .ok c' →
      primsIn 1 c' = (primsIn 1 (.product q : Node (Cgpm 0))).filter fun p => decide (¬ p.outputs = [o]) := by
    intro q c' hn hs hr
    obtain ⟨q', h2, rfl⟩ := except_map_ok (show (Walk.productRemove (cgpmI 0) q o).map _ = _ from hr)
    rw [productRemove_ok hn] at h2
    obtain ⟨rfl, -⟩ := init_ok h2
    rw [product_prims, product_prims]
    refine List.filter_congr fun b hb => ?_
    obtain ⟨a, ha⟩ := hs b hb
    change decide (o ∉ Prim.outputs b) = _
    rw [ha]
    simp [eq_comm]
  have hreg := h
  rw [hf.eq] at hreg
  have hreg : MixReg _ _ _ _ _ _ _ m := hreg
  have hbase := (flexMix_base (cgpmLaws 1) (cgpmTLaws Z 1) (m := m) hreg).1
  rw [hf.base] at hbase
  rw [hf.eq] at ho
  obtain ⟨m', h1, rfl⟩ := except_map_ok (show (Walk.flexMixRemove (removeCgpm 1) m o).map _ = _ from ho)
  have hx : o ≠ m.indexer := by
    rintro rfl
    unfold Walk.flexMixRemove at h1
    rw [if_pos rfl] at h1
    cases h1
  unfold Walk.flexMixRemove Walk.flexArrayRemove at h1
  rw [if_neg hx] at h1
  rcases hb : removeCgpm 1 m.array.base o with e | b
  · rw [hb] at h1; cases h1
  rw [hb] at h1
  rcases hc : (m.array.cgpms.mapM fun kc => (do
      let c' ← removeCgpm 1 kc.2 o
      pure (kc.1, c') : Except Err (Val × Cgpm 1))) with e | cs
  · rw [hc] at h1; cases h1
  rw [hc] at h1
  have hd : m'.rowDivide = m.rowDivide ∧ m'.array.cgpms = cs ∧ m'.array.base = b := by
    simp only [bind, Except.bind, pure, Except.pure, FlexMix.init] at h1
    split at h1
    · cases h1
    · rename_i heq
      split at heq
      · cases heq
      · cases heq
        cases h1
        exact ⟨rfl, rfl, rfl⟩
  have hcs : (Dict.values cs).flatMap (primsIn 1) =
      ((Dict.values m.array.cgpms).flatMap (primsIn 1)).filter fun p => decide (¬ p.outputs = [o]) := by
    have hv : ∀ c ∈ Dict.values m.array.cgpms, ∃ q : Product (Cgpm 0), c = (.product q : Node (Cgpm 0)) ∧
        (cgpmTab Z 1).Reg (.product q : Node (Cgpm 0)) := fun c hc => comp_mem hf h hc
    clear h1 hd
    generalize m.array.cgpms = d at hc hv
    induction d generalizing cs with
    | nil => cases hc; rfl
    | cons kc d ih =>
      rw [List.mapM_cons] at hc
      rcases hk : removeCgpm 1 kc.2 o with e | c'
      · rw [hk] at hc; cases hc
      rw [hk] at hc
      rcases hd' : (d.mapM fun kc => (do
          let c' ← removeCgpm 1 kc.2 o
          pure (kc.1, c') : Except Err (Val × Cgpm 1))) with e | cs'
      · rw [hd'] at hc; cases hc
      rw [hd'] at hc
      cases hc
      have e1 := ih (cs := cs') hd' fun c hc => hv c (List.mem_cons_of_mem _ hc)
      obtain ⟨q, hq, hqr⟩ := hv kc.2 List.mem_cons_self
      have e2 := hprod q c' (Product.validate_nodup hqr.2.1) (fun b hb => (hqr.1 b hb).1.1.out) (hq ▸ hk)
      change primsIn 1 c' ++ (Dict.values cs').flatMap (primsIn 1) =
        (primsIn 1 kc.2 ++ (Dict.values d).flatMap (primsIn 1)).filter _
      rw [List.filter_append, e1, e2, hq]
  have hbs := hprod p b hf.nodup (fun b hb => hf.single b hb) (by rw [← hf.base]; exact hb)
  rw [hf.eq]
  change m'.rowDivide :: ((Dict.values m'.array.cgpms).flatMap (primsIn 1) ++ primsIn 1 m'.array.base) =
    (m.rowDivide :: ((Dict.values m.array.cgpms).flatMap (primsIn 1) ++ primsIn 1 m.array.base)).filter _
  rw [hd.1, hd.2.1, hd.2.2, hcs, hbs, List.filter_cons_of_pos (by
    rw [hf.out]
    simpa using fun e : m.indexer = o => hx e.symm), List.filter_append, hf.base]

/-- Taking a column out takes its score away. -/
theorem remove_score {v v' : View} (h : (cgpmTab Z 2).Reg v) (hv : IsView v) {o : Var}
    (ho : o ∈ (cgpmI 2).outputs v) (hr : removeCgpm 2 v o = .ok v') :
    ∃ d s : ℝ, dataLogp v o = .ok (.fin d) ∧ (cgpmI 2).logpdfScore v = .ok (.fin (d + s)) ∧
      (1 < ((cgpmI 2).outputs v').length → (cgpmTab Z 2).Reg v' ∧ IsView v' ∧
        (cgpmI 2).logpdfScore v' = .ok (.fin s)) := by
  obtain ⟨m, p, hf⟩ := flat_of_reg h hv
  refine ⟨_, _, dataLogp_eq h ho, (view_score h hv).trans (by rw [sum_split _ fun p => p.outputs = [o]]), fun hl => ?_⟩
  obtain ⟨-, m', hf', -⟩ := remove_flat hf hr
  obtain ⟨h1, -, -⟩ := remove_edit hf h hr hl
  refine ⟨h1, hf'.view, ?_⟩
  rw [view_score h1 hf'.view, remove_prims hf h hr]

/-! ## Observing a row that is there -/

/-- A cell of a row that is there: nothing is drawn, and what the view shares stays. -/
theorem observe_there {v : View} (h : (cgpmTab Z 2).Reg v) {o : Var} {x : Val} (ht : Takes v o x) (hz : o ∉ Z)
    {r : RowId} (hc : (cgpmTab Z 2).cell v r o = none) (hp : (cgpmTab Z 2).present v r) :
    ∃ v', (∀ g, (cgpmI 2).observe r [(o, x)] [] (v, g) = (.ok (), (v', g))) ∧ ∀ u, share u v' = share u v := by
  obtain ⟨m, p, hf, b, hb, h1, h2, h3⟩ := ht
  have h0 := h
  have hkept := kept_self h hf.view
  rw [hf.eq] at h hc hp hkept
  obtain ⟨m0, e0, hk⟩ := hkept
  cases e0
  have hreg : MixReg _ _ _ _ _ _ _ m := h
  have hne : o ≠ m.indexer := fun e => hz (e ▸ hreg.x_mem)
  have hc : (if o = m.indexer then _ else (Dict.get? m.rowidToComponent r).bind fun z =>
    (some (m.array.comp (cgpmSem 1) z)).bind fun c => (cgpmTab Z 1).cell c r o) = none := hc
  rw [if_neg hne] at hc
  have hout : (flexArrayI (cgpmI 1)).outputs m.array = p.cgpms.flatMap (cgpmI 0).outputs := by
    change (cgpmI 1).outputs m.array.base = _
    rw [hf.base]; rfl
  have hmem : o ∈ (flexArrayI (cgpmI 1)).outputs m.array := by
    rw [hout]; exact List.mem_flatMap.2 ⟨b, hb, by change o ∈ b.outputs; simp [h1]⟩
  have hob : ∀ a, only [a] (only ((flexArrayI (cgpmI 1)).outputs m.array) [(o, x)]) =
      if a = o then [(o, x)] else [] := by
    intro a
    rw [only_self (l := (flexArrayI (cgpmI 1)).outputs m.array) (by simpa [Dict.keys] using hmem), only_cell]
  have hp : Dict.get? m.rowidToComponent r ≠ none := hp
  obtain ⟨z, hr⟩ := Option.ne_none_iff_exists'.1 hp
  rw [hr] at hc
  have key : ∀ g, ∃ c', RowMix.observe (flexArrayI (cgpmI 1)) r [(o, x)] [] (m, g) = (.ok (), ({ m with
      array := (flexArr (cgpmSem 1)).setIdx ((flexArr (cgpmSem 1)).put m.array z c') m.array.rowidToIndex }, g)) := by
    intro g
    obtain ⟨c', hc'⟩ := comp_observe hf h0 hb h1 h2 h3 z hc hob g
    refine ⟨c', (observe_held (flexArrLaws (cgpmLaws 1)) hreg hr rfl [] hc').trans ?_⟩
    rw [show Dict.set ((flexArr (cgpmSem 1)).idx m.array) r z = m.array.rowidToIndex from
      Dict.set_get _ _ _ ((hreg.idx r).trans hr)]
  choose c hcc using key
  have hsame : ∀ g g', (RowMix.observe (flexArrayI (cgpmI 1)) r [(o, x)] [] (m, g)).2.1 =
      (RowMix.observe (flexArrayI (cgpmI 1)) r [(o, x)] [] (m, g')).2.1 := by
    intro g g'
    have e : ∀ g, RowMix.observe (flexArrayI (cgpmI 1)) r [(o, x)] [] (m, g) =
        RowMix.onArray ((flexArrayI (cgpmI 1)).observe r (only ((flexArrayI (cgpmI 1)).outputs m.array) [(o, x)])
          [(m.indexer, z)]) (m, g) := by
      intro g
      unfold RowMix.observe
      rw [Py.get_bind]
      dsimp only
      rw [hreg.inputsX, getIntersection_eq, getIntersection_eq, only_nil, hr]
      dsimp only
      rw [Py.pure_bind', merged_single]
      rfl
    rw [e, e, onArray_eq, onArray_eq]
    have := (calm_array_observe (primsIn 2 (.flexMix m : Node (Cgpm 1))) r
      (only ((flexArrayI (cgpmI 1)).outputs m.array) [(o, x)]) [(m.indexer, z)] m.array g g' (by
        have := hk.2; rw [← hf.eq] at *; exact this)).2.1
    dsimp only
    rw [this]
  refine ⟨(.flexMix (RowMix.observe (flexArrayI (cgpmI 1)) r [(o, x)] [] (m, fun _ => ⟨0, 0⟩)).2.1 : Node (Cgpm 1)),
    fun g => ?_, fun u => ?_⟩
  · rw [hf.eq]
    refine inside_eq ((hcc g).trans ?_)
    have := hsame g fun _ => ⟨0, 0⟩
    rw [hcc g] at this
    rw [← this]
  · rw [hcc, hf.eq]
    cases u <;> rfl

/-- Cells of rows that are there. -/
theorem observeAll_there {l : List (RowId × Dict Var Val)} {v : View} (h : (cgpmTab Z 2).Reg v)
    (hl : ∀ e ∈ l, ∃ o x, e.2 = [(o, x)] ∧ o ∉ Z ∧ Takes v o x ∧ (cgpmTab Z 2).cell v e.1 o = none)
    (hd : l.Pairwise fun e e' => e.1 = e'.1 → Dict.keys e.2 ≠ Dict.keys e'.2)
    (hp : ∀ e ∈ l, (cgpmTab Z 2).present v e.1) :
    ∃ v', (∀ g, observeAll l (v, g) = (.ok (), (v', g))) ∧ ∀ u, share u v' = share u v := by
  induction l generalizing v with
  | nil => exact ⟨v, fun _ => rfl, fun _ => rfl⟩
  | cons e l ih =>
    obtain ⟨r, d⟩ := e
    obtain ⟨o, x, hd1, ho, ht, hc⟩ := hl (r, d) (by simp)
    dsimp only at hd1 hc
    subst hd1
    obtain ⟨v1, h1, h2⟩ := observe_there h ht ho hc (hp (r, [(o, x)]) (by simp))
    have h3 : observeAll [(r, [(o, x)])] (v, fun _ => ⟨0, 0⟩) = (.ok (), (v1, fun _ => ⟨0, 0⟩)) := by
      unfold observeAll
      rw [Py.bind_apply, h1]
      rfl
    obtain ⟨a1, a2, a3, a4, a5, -, a7⟩ := observeAll_ok (Z := Z) (by
      intro e he y hy b hb
      rw [List.mem_singleton.1 he] at hb
      dsimp only at hb
      rw [Dict.get?_cons, if_neg (fun e : o = y => ho (e ▸ hy))] at hb
      cases hb) h h3
    rw [List.pairwise_cons] at hd
    obtain ⟨v2, b1, b2⟩ := ih a1 (fun e he => by
      obtain ⟨o', x', c1, c2, c3, c4⟩ := hl e (by simp [he])
      refine ⟨o', x', c1, c2, c3.shape a1 a2, a5 e.1 o' c2 c4 fun e' he' her => ?_⟩
      rw [List.mem_singleton.1 he'] at her ⊢
      dsimp only at her ⊢
      have := hd.1 e he her
      rw [c1] at this
      rw [Dict.get?_cons, if_neg]
      · rfl
      · rintro rfl
        exact this rfl) hd.2 (fun e he => (a7 e.1).2 (.inl (hp e (by simp [he]))))
    refine ⟨v2, fun g => ?_, fun u => (b2 u).trans (h2 u)⟩
    unfold observeAll
    rw [Py.bind_apply, h1]
    exact b1 g

theorem kept_like {l : List Prim} {w : View} (hk : KeptView l w) : ∀ q ∈ primsIn 2 w, Like l q := by
  intro q hq
  obtain ⟨m, rfl, h1, h2⟩ := hk
  have kp : ∀ c : Cgpm 1, KeptProduct l c → q ∈ primsIn 1 c → Like l q := by
    rintro c ⟨k, rfl, hk⟩ hq
    obtain ⟨b, hb, hq⟩ := List.mem_flatMap.1 hq
    rw [List.mem_singleton.1 hq]
    exact hk b hb
  rcases List.mem_cons.1 hq with rfl | hq
  · exact h1
  · rcases List.mem_append.1 hq with hq | hq
    · obtain ⟨c, hc, hq⟩ := List.mem_flatMap.1 hq
      exact kp c (h2.2 c hc) hq
    · exact kp _ h2.1.2 hq

theorem observeAll_keeps (l : List Prim) (d : List (RowId × Dict Var Val)) : Py.Stays (KeptView l) (observeAll d) := by
  induction d with
  | nil => exact fun _ _ h => h
  | cons e d ih => exact Py.Stays.bind (stays_view_observe l _ _ _) fun _ => ih

/-- A proposal for a view that has the rows: nothing is drawn, and the view stays as it is. -/
theorem proposal_there {X : RowId → Var → Option Val} {o : Var} {b : Prim} {datasets : List (List (RowId × Dict Var Val))}
    (h : Fed Z X [o] [b] datasets.flatten) (hl : Feeds [b] datasets.flatten) {v : View}
    (hr : (cgpmTab Z 2).Reg v) (hv : IsView v) (hn : ((cgpmI 2).outputs v ++ [o]).Nodup)
    (hp : ∀ r, Valued X [o] r → (cgpmTab Z 2).present v r) :
    ∃ p, (∀ g, proposalExisting [b] datasets (v, g) = (.ok p, (v, g))) ∧
      ∀ q ∈ primsIn 2 p, q.outputs ≠ [o] → ∃ a ∈ primsIn 2 v, SameModel a q := by
  obtain ⟨w, e1, -, e3⟩ := add_total h.reg hr hv (by rw [h.base]; exact hn)
  obtain ⟨a1, a2, a3, a4, a5⟩ := addCgpm_views h.reg hr hv e1
  have hbo : b.outputs = [o] := by simpa using h.base
  obtain ⟨w', e4, e5⟩ := observeAll_there (l := datasets.flatten) a1 (by
    intro e he
    obtain ⟨p, hp, o', x, h1, h2, h3⟩ := hl.legal e he
    have ho : o' ∈ [o] := by rw [← h.base]; exact List.mem_flatMap.2 ⟨p, hp, by simp [h1]⟩
    refine ⟨o', x, h2, h.out o' ho, e3 p hp o' x h1 h3, (a4 e.1 o').trans ?_⟩
    exact (cgpmTLaws Z 2).cell_out _ _ _ hr fun hc => (List.nodup_append.1 hn).2.2 o' hc o' ho rfl) hl.distinct
    (fun e he => (a5 e.1).2 (hp e.1 ((h.rows e.1).1 ⟨e, he, rfl⟩)))
  have e1' : addCgpm 2 v b = .ok w := by
    rw [List.foldlM_cons] at e1
    rcases h1 : addCgpm 2 v b with e | v1
    · rw [h1] at e1; cases e1
    · rw [h1] at e1; exact e1
  have hg : b.Good := (h.reg b (by simp)).1.1
  have hsh : share v w = v := by
    obtain ⟨m, p, hf⟩ := flat_of_reg hr hv
    rw [hf.eq] at e1' hr ⊢
    obtain ⟨m', h1, rfl⟩ := except_map_ok (show (Walk.flexMixAdd (addCgpm 1) m b).map _ = _ from e1')
    obtain ⟨b', cs, rfl, -, -⟩ := flexMixAdd_of hf.out hg h1
    rfl
  refine ⟨w', fun g => ?_, fun q hq hqo => ?_⟩
  · unfold proposalExisting
    dsimp only
    rw [e1]
    dsimp only
    rw [e4]
    dsimp only
    rw [e5, hsh]
  · have hk := observeAll_keeps (primsIn 2 w) datasets.flatten w (fun _ => ⟨0, 0⟩) (kept_self a1 a2)
    rw [e4] at hk
    obtain ⟨-, a, ha, hs⟩ := kept_like hk q hq
    rcases addCgpm_prims 2 v w b hr hg (isView_addable hv) e1' a ha with h1 | rfl | rfl
    · exact ⟨a, h1, hs⟩
    · exact absurd (hs.outputs.symm.trans hbo) hqo
    · exact absurd (hs.outputs.symm.trans ((sameModel_clear b).outputs.symm.trans hbo)) hqo

/-! ## The score of a proposal -/

theorem fold_single {f : View → Var → Except Err View} {v v' : View} {o : Var} (h : [o].foldlM f v = .ok v') :
    f v o = .ok v' := by
  rw [List.foldlM_cons] at h
  rcases h1 : f v o with e | v1
  · rw [h1] at h; cases h
  · rw [h1] at h; exact h

theorem remove_outputs {v v' : View} {m : FlexMix (Cgpm 1)} {p : Product (Cgpm 0)} (hf : Flat v m p) {o : Var}
    (ho : removeCgpm 2 v o = .ok v') : (cgpmI 2).outputs v' = ((cgpmI 2).outputs v).filter fun a => decide (a ≠ o) := by
  obtain ⟨h1, m', hf', h2⟩ := remove_flat hf ho
  rw [hf'.outputs, flat_filter hf.single, h2, hf.outputs, List.filter_cons_of_pos (by simpa using h1.symm)]

theorem proposal_score {X : RowId → Var → Option Val} {o : Var} {v p : View} (hr : (cgpmTab Z 2).Reg v) (hv : IsView v)
    (hne : viewColumns v ≠ []) (hpl : ∀ a ∈ viewColumns v, a ∉ Z) (hp : Proposal Z X [o] v p)
    (hval : ∀ r, Valued X [o] r → (cgpmTab Z 2).present v r)
    (hlike : ∀ q ∈ primsIn 2 p, q.outputs ≠ [o] → ∃ a ∈ primsIn 2 v, SameModel a q)
    (hsh : ∀ a ∈ primsIn 2 v, ∀ b ∈ primsIn 2 v, a.outputs = b.outputs → SameModel a b) :
    ∃ d s : ℝ, dataLogp p o = .ok (.fin d) ∧ (cgpmI 2).logpdfScore v = .ok (.fin s) ∧
      (cgpmI 2).logpdfScore p = .ok (.fin (d + s)) := by
  obtain ⟨m, q, hf⟩ := flat_of_reg hp.reg hp.view
  obtain ⟨m0, q0, hf0⟩ := flat_of_reg hr hv
  have hnd : ((cgpmI 2).outputs v ++ [o]).Nodup := hp.out ▸ (cgpmTLaws Z 2).nodup _ hp.reg
  have hov : o ∉ (cgpmI 2).outputs v := fun h => (List.nodup_append.1 hnd).2.2 o h o (by simp) rfl
  have hix : m.indexer = m0.indexer := by
    have := hp.out
    rw [hf.outputs, hf0.outputs, List.cons_append] at this
    exact (List.cons.inj this).1
  have hoi : o ≠ m.indexer := by
    rintro rfl
    exact hov (by rw [hf0.outputs, hix]; simp)
  obtain ⟨p', e1⟩ := remove_total hf hp.reg (outs := [o]) (by simpa using hoi)
  have e1 := fold_single e1
  have hout : (cgpmI 2).outputs p' = (cgpmI 2).outputs v := by
    rw [remove_outputs hf e1, hp.out, List.filter_append]
    rw [List.filter_eq_self.2 (fun a ha => by simpa using fun e : a = o => hov (e ▸ ha))]
    simp
  have hlen : 1 < ((cgpmI 2).outputs p').length := by
    rw [hout, hf0.outputs]
    unfold viewColumns at hne
    rw [hf0.outputs, List.tail_cons] at hne
    have := List.length_pos_iff.2 hne
    rw [List.length_cons]
    omega
  obtain ⟨d, s, h1, h2, h3⟩ := remove_score hp.reg hp.view (o := o) (by rw [hp.out]; simp) e1
  obtain ⟨h3, h4, h5⟩ := h3 hlen
  refine ⟨d, s, h1, ?_, h2⟩
  rw [← h5]
  obtain ⟨-, k2, k3⟩ := remove_edit hf hp.reg e1 hlen
  refine score_determined hr h3 hv h4 (by rw [hout]) (by unfold viewColumns; rw [hout]) ?_ ?_ ?_
  · intro a ha b hb e
    rw [remove_prims hf hp.reg e1, List.mem_filter] at hb
    obtain ⟨c, hc, hs⟩ := hlike b hb.1 (by simpa using hb.2)
    exact (hsh a ha c hc (e.trans hs.outputs.symm)).trans hs
  · intro r a ha
    have hav := columns_sub ha
    rw [k2 r a (by rw [hout]; exact hav)]
    exact hp.cell r a (hpl a ha) (by simpa using fun e : a = o => hov (e ▸ hav))
  · have hcl : ∀ r, clusterOf p' r = clusterOf v r := by
      intro r
      have hh : ((cgpmI 2).outputs v).headD 0 = m0.indexer := by rw [hf0.outputs]; rfl
      rw [clusterOf_eq Z, clusterOf_eq Z, hout, hh, k2 r _ (by rw [hout, hf0.outputs]; simp)]
      rcases hc : (cgpmTab Z 2).cell v r m0.indexer with _ | a
      · by_contra hx
        have hpres := (cgpmTLaws Z 2).present_cell _ _ _ hp.reg hx
        have : (cgpmTab Z 2).present v r := by
          rcases (hp.rows r).1 hpres with h | h
          · exact h
          · exact hval r h
        rw [hf0.eq] at this hc
        have e1 : (cgpmTab Z 2).cell (.flexMix m0 : Node (Cgpm 1)) r m0.indexer =
          Dict.get? m0.rowidToComponent r := if_pos rfl
        rw [e1] at hc
        exact (show Dict.get? m0.rowidToComponent r ≠ none from this) hc
      · exact hp.kept r _ a hc
    intro r r'
    rw [hcl, hcl]

/-! ## All proposals -/

theorem proposeFrom_there {X : RowId → Var → Option Val} {o : Var} {b : Prim}
    {datasets : List (List (RowId × Dict Var Val))} (h : Fed Z X [o] [b] datasets.flatten)
    (hl : Feeds [b] datasets.flatten) {cur : Nat} (hc : cur ≤ 256) {views : List View} {i : Nat}
    (hr : ∀ v ∈ views, (cgpmTab Z 2).Reg v ∧ IsView v)
    (hd : ∀ (j : Nat) v, views[j]? = some v → i + j ≠ cur → ((cgpmI 2).outputs v ++ [o]).Nodup)
    (hp : ∀ v ∈ views, ∀ r, Valued X [o] r → (cgpmTab Z 2).present v r) :
    ∃ ps, (∀ g, proposeFrom [b] datasets cur i views g = (.ok ps, (views, g))) ∧ ps.length = views.length ∧
      (∀ (j : Nat) v, views[j]? = some v → i + j = cur → ps[j]? = some v) ∧
      ∀ (j : Nat) v, views[j]? = some v → i + j ≠ cur → ∃ p, ps[j]? = some p ∧
        ∀ q ∈ primsIn 2 p, q.outputs ≠ [o] → ∃ a ∈ primsIn 2 v, SameModel a q := by
  induction views generalizing i with
  | nil => exact ⟨[], fun _ => rfl, rfl, by simp, by simp⟩
  | cons v views ih =>
    obtain ⟨ps, e1, e2, e3, e4⟩ := ih (i := i + 1) (fun v hv => hr v (by simp [hv]))
      (fun j u hj hne => hd (j + 1) u hj (by omega)) (fun v hv => hp v (by simp [hv]))
    obtain ⟨p, h1, h2, h3⟩ : ∃ p, (∀ g, proposeOne [b] datasets cur i (v, g) = (.ok p, (v, g))) ∧ (i = cur → p = v) ∧
        (i ≠ cur → ∀ q ∈ primsIn 2 p, q.outputs ≠ [o] → ∃ a ∈ primsIn 2 v, SameModel a q) := by
      by_cases hi : i = cur
      · refine ⟨v, fun g => ?_, fun _ => rfl, fun h => absurd hi h⟩
        unfold proposeOne
        rw [if_pos (by simp [sameInt, hi, hc])]
        rfl
      · obtain ⟨p, k1, k2⟩ := proposal_there h hl (hr v (by simp)).1 (hr v (by simp)).2
          (hd 0 v rfl (by simpa using hi)) (hp v (by simp))
        refine ⟨p, fun g => ?_, fun h => absurd h hi, fun _ => k2⟩
        unfold proposeOne
        rw [if_neg (by simp [sameInt, hi])]
        exact k1 g
    refine ⟨p :: ps, fun g => ?_, by simp [e2], fun j u hj hij => ?_, fun j u hj hij => ?_⟩
    · unfold proposeFrom
      rw [h1]
      dsimp only
      rw [e1]
    · rcases j with _ | j
      · cases hj
        simp [h2 (by simpa using hij)]
      · exact e3 j u hj (by omega)
    · rcases j with _ | j
      · cases hj
        exact ⟨p, rfl, h3 (by simpa using hij)⟩
      · exact e4 j u hj (by omega)

/-- The proposals for a column, in a CrossCat whose views have the same rows. -/
theorem existing_there {x : Crosscat} (h : CC Z x) {R : RowId → Prop} (hR : Rows Z x R) {o : Var} {k : Nat} {v0 : View}
    (hk : x.cgpms[k]? = some v0) (ho : o ∈ viewColumns v0) (hk256 : k ≤ 256)
    (hsh : ∀ v ∈ x.cgpms, ∀ a ∈ primsIn 2 v, ∀ b ∈ primsIn 2 v, a.outputs = b.outputs → SameModel a b) :
    ∃ ps, (∀ g, proposalsExisting [o] (x, g) = (.ok ps, (x, g))) ∧ ps.length = x.cgpms.length ∧ ps[k]? = some v0 ∧
      ∀ (j : Nat) v, x.cgpms[j]? = some v → j ≠ k → ∃ p, ps[j]? = some p ∧ (cgpmTab Z 2).Reg p ∧ IsView p ∧
        (cgpmI 2).outputs p = (cgpmI 2).outputs v ++ [o] ∧ ∃ d s : ℝ, dataLogp p o = .ok (.fin d) ∧
          (cgpmI 2).logpdfScore v = .ok (.fin s) ∧ (cgpmI 2).logpdfScore p = .ok (.fin (d + s)) := by
  have hm0 := List.mem_of_getElem? hk
  have hcol : ∀ a ∈ [o], a ∈ columns x := fun a h' => by
    rw [List.mem_singleton.1 h']; exact mem_columns.2 ⟨v0, hm0, ho⟩
  have hvi := viewIndex_total h (outs := [o]) (by simp) hk (by simpa using ho)
  obtain ⟨bases, ds, hb, hfe⟩ := basesOf_total h hcol (by simp)
  have hfed := basesOf_ok h hcol hb
  obtain ⟨b, rfl⟩ : ∃ b, bases = [b] := by
    have : bases.length = 1 := by
      unfold basesOf at hb
      rcases h1 : ([o].mapM fun output => cgpmBase (n := 3) (whole x) output) with e | bs
      · rw [h1] at hb; cases hb
      rw [h1] at hb
      rcases h2 : ([o].mapM fun output => Cpp.getDataset (n := 3) (whole x) output) with e | ds'
      · change (do let d ← [o].mapM fun output => Cpp.getDataset (n := 3) (whole x) output; pure (bs, d) : Except Err _) = _ at hb
        rw [h2] at hb; cases hb
      change (do let d ← [o].mapM fun output => Cpp.getDataset (n := 3) (whole x) output; pure (bs, d) : Except Err _) = _ at hb
      rw [h2] at hb
      cases hb
      exact (mapM_ok_forall h1).length_eq.symm
    exact List.length_eq_one_iff.1 this
  have hval : ∀ v ∈ x.cgpms, ∀ r, Valued (fun r a => (cgpmTab Z 3).cell (whole x) r a) [o] r →
      (cgpmTab Z 2).present v r := by
    intro v hv r hr
    have h1 := h.valued hcol R hR r hr
    exact (hR v hv r).2 h1
  obtain ⟨ps, e1, e2, e3, e4⟩ := proposeFrom_there hfed hfe hk256 (views := x.cgpms) (i := 0) h.all
    (fun j u hj hjk => outputs_disjoint h (by simp) hk (by simpa using ho) hj (by omega)) hval
  obtain ⟨-, -, a3⟩ := proposeFrom_ok hfed h.all (e1 fun _ => ⟨0, 0⟩)
  refine ⟨ps, fun g => ?_, e2, e3 k v0 hk (by omega), fun j v hj hjk => ?_⟩
  · unfold proposalsExisting
    rw [Py.get_bind]
    dsimp only
    rw [Py.lift_bind, hvi]
    dsimp only
    rw [Py.lift_bind, hb]
    dsimp only
    unfold onViews
    dsimp only
    rw [e1]
  · obtain ⟨p, h1, h2⟩ := e4 j v hj (by omega)
    obtain ⟨v', hv', hp⟩ := a3 j p h1 (by omega)
    rw [hj] at hv'
    cases hv'
    have hm := List.mem_of_getElem? hj
    exact ⟨p, h1, hp.reg, hp.view, hp.out, proposal_score (h.viewReg hm) (h.views v hm) (h.nonempty hm)
      (fun a ha => h.plain a (mem_columns.2 ⟨v, hm, ha⟩)) hp (hval v hm) h2 (hsh v hm)⟩

/-! ## The CrossCat after the move -/

/-- The score of a view, as a number. -/
noncomputable def scoreOf (v : View) : ℝ :=
  match (cgpmI 2).logpdfScore v with
  | .ok (.fin y) => y
  | _ => 0

theorem scoreOf_eq {v : View} {y : ℝ} (h : (cgpmI 2).logpdfScore v = .ok (.fin y)) : scoreOf v = y := by
  unfold scoreOf; rw [h]

theorem whole_score {x : Crosscat} (h : ∀ v ∈ x.cgpms, ∃ y : ℝ, (cgpmI 2).logpdfScore v = .ok (.fin y)) :
    (cgpmI 3).logpdfScore (whole x) = .ok (.fin (x.cgpms.map scoreOf).sum) := by
  change (do let r ← x.cgpms.mapM (cgpmI 2).logpdfScore; pure (Fl.sum r) : Except Err Fl) = _
  have e : x.cgpms.mapM (cgpmI 2).logpdfScore = .ok (x.cgpms.map fun v => Fl.fin (scoreOf v)) :=
    mapM_ok _ _ _ fun v hv => by
      obtain ⟨y, hy⟩ := h v hv
      rw [hy, scoreOf_eq hy]
  rw [e]
  exact congrArg Except.ok (fl_sum_fin _ _)

theorem settle_there {x : Crosscat} (h : CC Z x) {o : Var} {k : Nat} {v0 : View} (hk : x.cgpms[k]? = some v0)
    (ho : o ∈ viewColumns v0) {ps : List View} {j : Nat} {v p : View} (hj : x.cgpms[j]? = some v) (hjk : j ≠ k)
    (hp : ps[j]? = some p) (hreg : (cgpmTab Z 2).Reg p) (hout : (cgpmI 2).outputs p = (cgpmI 2).outputs v ++ [o]) :
    ∃ X v0' l w, settle x [o] ps k j = .ok X ∧ removeCgpm 2 v0 o = .ok v0' ∧ X.cgpms = l ++ [p] ∧
      x.cgpms.Perm (v0 :: v :: w) ∧
      X.cgpms.Perm (p :: ((if 1 < ((cgpmI 2).outputs v0').length then [v0'] else []) ++ w)) := by
  have m0 := List.mem_of_getElem? hk
  have mj := List.mem_of_getElem? hj
  have ho' : ∀ a ∈ [o], a ∈ viewColumns v0 := by simpa using ho
  have hvne : v ≠ v0 := by
    rintro rfl
    exact hjk (index_unique h.nodup hj hk (h.head_mem mj) (h.head_mem mj))
  obtain ⟨v0', y1, y2, k1, k2, k3, k4, k5, k6, k7⟩ := leave_total h m0 ho'
  obtain ⟨y3, X, e1, e2, -⟩ := join_total k4 k5 (fun a ha => (k6 a ha).2) (k7 v mj hvne) rfl (h.head_mem mj) hout
    (by simp) ((cgpmTLaws Z 2).inputs p hreg)
  have hrun := settle_run (x' := X) hk hp (.inr ⟨fun e => hjk e.symm, v0', y1, y2, k1, k2, k3,
    .inr ⟨(List.getElem?_eq_some_iff.1 hj).1, v, y3, hj, by
      rw [hout]
      have hne : (cgpmI 2).outputs v ≠ [] := (cgpmFrame Z 2).some v (h.viewReg mj)
      rcases hv : (cgpmI 2).outputs v with _ | ⟨a, l⟩
      · exact absurd hv hne
      · rfl, e1, e2⟩⟩)
  rw [if_neg fun e => hjk e.symm] at hrun
  have q1 := dropView_ok h.nodup m0 (h.head_mem m0) k2
  have hny := ((q1.flatMap_right (cgpmI 2).outputs).nodup_iff.1 h.nodup)
  rw [List.flatMap_cons, List.nodup_append] at hny
  have q2 := (restore_ok k3 hny.2.1).1
  have q3 := dropView_ok k4 (k7 v mj hvne) (h.head_mem mj) e1
  have q4 := (putView_ok e2).1
  have hv1 : v ∈ y1.cgpms := by
    rcases List.mem_cons.1 (q1.mem_iff.1 mj) with e | e
    · exact absurd e hvne
    · exact e
  obtain ⟨l1, l2, hl⟩ := List.append_of_mem hv1
  have q5 : y1.cgpms.Perm (v :: (l1 ++ l2)) := by rw [hl]; exact List.perm_middle
  refine ⟨X, v0', y3.cgpms, l1 ++ l2, hrun, fold_single k1, q4, q1.trans (q5.cons _), ?_⟩
  rw [q4]
  refine (List.perm_append_singleton _ _).trans (List.Perm.cons _ ?_)
  have q6 : (v :: y3.cgpms).Perm (v :: ((l1 ++ l2) ++ (if 1 < ((cgpmI 2).outputs v0').length then [v0'] else []))) := by
    refine q3.symm.trans ?_
    rw [q2]
    exact q5.append_right _
  exact q6.cons_inv.trans List.perm_append_comm

theorem CC.scored {x : Crosscat} (h : CC Z x) : ∀ v ∈ x.cgpms, ∃ y : ℝ, (cgpmI 2).logpdfScore v = .ok (.fin y) :=
  fun v hv => view_scored (h.viewReg hv) (h.views v hv)

/-- The score of the CrossCat after the move. -/
theorem moved_score {x X : Crosscat} (h : CC Z x) {o : Var} {v0 v v0' p : View} {w : List View} (m0 : v0 ∈ x.cgpms)
    (ho : o ∈ viewColumns v0) (hr : removeCgpm 2 v0 o = .ok v0') (hx : x.cgpms.Perm (v0 :: v :: w))
    (hX : X.cgpms.Perm (p :: ((if 1 < ((cgpmI 2).outputs v0').length then [v0'] else []) ++ w))) {d s : ℝ}
    (h2 : (cgpmI 2).logpdfScore v = .ok (.fin s)) (h3 : (cgpmI 2).logpdfScore p = .ok (.fin (d + s))) :
    ∃ S d0 s0 : ℝ, (cgpmI 3).logpdfScore (whole x) = .ok (.fin S) ∧ dataLogp v0 o = .ok (.fin d0) ∧
      (cgpmI 2).logpdfScore v0 = .ok (.fin (d0 + s0)) ∧ (cgpmI 3).logpdfScore (whole X) =
        .ok (.fin (S + d - d0 - if 1 < ((cgpmI 2).outputs v0').length then 0 else s0)) := by
  obtain ⟨d0, s0, a1, a2, a3⟩ := remove_score (h.viewReg m0) (h.views v0 m0) (columns_sub ho) hr
  refine ⟨_, d0, s0, whole_score h.scored, a1, a2, ?_⟩
  have hw : ∀ u ∈ w, ∃ y : ℝ, (cgpmI 2).logpdfScore u = .ok (.fin y) := fun u hu =>
    h.scored u (hx.mem_iff.2 (by simp [hu]))
  rw [whole_score fun u hu => ?_]
  · congr 2
    rw [(hX.map scoreOf).sum_eq, (hx.map scoreOf).sum_eq]
    simp only [List.map_cons, List.sum_cons, List.map_append, List.sum_append, scoreOf_eq h2, scoreOf_eq h3, scoreOf_eq a2]
    split
    · rename_i hl
      simp only [List.map_cons, List.sum_cons, List.map_nil, List.sum_nil, scoreOf_eq (a3 hl).2.2]
      ring
    · simp only [List.map_nil, List.sum_nil]
      ring
  · rcases List.mem_cons.1 (hX.mem_iff.1 hu) with rfl | hu
    · exact ⟨_, h3⟩
    · rcases List.mem_append.1 hu with hu | hu
      · split at hu
        · rename_i hl
          rw [List.mem_singleton.1 hu]
          exact ⟨_, (a3 hl).2.2⟩
        · cases hu
      · exact hw u hu

/-! ## The law of the move -/

/-- The outcomes of a move of one column between the views there are. -/
structure Moves (x : Crosscat) (o : Var) (k : Nat) (v0 : View) (ps0 : List View) (X : Nat → Crosscat) (D : Nat → ℝ)
    (S s0 : ℝ) (alone : Prop) : Prop where
  run : ∀ g, proposalsExisting [o] (x, g) = (.ok ps0, (x, g))
  len : ps0.length = x.cgpms.length
  base : (cgpmI 3).logpdfScore (whole x) = .ok (.fin S)
  stay : X k = x
  held : (cgpmI 2).logpdfScore v0 = .ok (.fin (D k + s0))
  here : ps0[k]? = some v0
  logp : ∀ i p, ps0[i]? = some p → dataLogp p o = .ok (.fin (D i))
  score : ∀ i < x.cgpms.length, ∃ c, (i ≠ k → alone → c = s0) ∧ (i = k ∨ ¬ alone → c = 0) ∧
    (cgpmI 3).logpdfScore (whole (X i)) = .ok (.fin (S + D i - D k - c))
  goal : ∀ i < x.cgpms.length, ∀ ps : List View, ps[i]? = ps0[i]? → settle x [o] ps k i = .ok (X i)
  last : ∀ i < x.cgpms.length, i ≠ k → ∃ l p v, (X i).cgpms = l ++ [p] ∧ x.cgpms[i]? = some v ∧
    (cgpmI 2).outputs p = (cgpmI 2).outputs v ++ [o]
  lone : alone ↔ viewColumns v0 = [o]

theorem moves {x : Crosscat} (h : CC Z x) {R : RowId → Prop} (hR : Rows Z x R) {o : Var} {k : Nat} {v0 : View}
    (hk : x.cgpms[k]? = some v0) (ho : o ∈ viewColumns v0) (hk256 : k ≤ 256)
    (hsh : ∀ v ∈ x.cgpms, ∀ a ∈ primsIn 2 v, ∀ b ∈ primsIn 2 v, a.outputs = b.outputs → SameModel a b) :
    ∃ ps0 X D S s0 alone, Moves x o k v0 ps0 X D S s0 alone := by
  classical
  obtain ⟨ps0, e1, e2, e3, e4⟩ := existing_there h hR hk ho hk256 hsh
  have m0 := List.mem_of_getElem? hk
  have hf := flat_of_reg (h.viewReg m0) (h.views v0 m0)
  obtain ⟨m, q, hf⟩ := hf
  have hoi : o ≠ m.indexer := by
    intro e
    have hn := (cgpmTLaws Z 2).nodup _ (h.viewReg m0)
    unfold viewColumns at ho
    rw [hf.outputs] at ho hn
    exact (List.nodup_cons.1 hn).1 (e ▸ ho)
  obtain ⟨v0', r1⟩ := remove_total hf (h.viewReg m0) (outs := [o]) (by simpa using hoi)
  have r1 := fold_single r1
  obtain ⟨d0, s0, a1, a2, -⟩ := remove_score (h.viewReg m0) (h.views v0 m0) (columns_sub ho) r1
  obtain ⟨S, hS⟩ : ∃ S : ℝ, (cgpmI 3).logpdfScore (whole x) = .ok (.fin S) := ⟨_, whole_score h.scored⟩
  have key : ∀ i, ∃ (Xi : Crosscat) (d : ℝ), (i = k → Xi = x ∧ d = d0) ∧ (i < x.cgpms.length → i ≠ k → ∃ v p l,
      x.cgpms[i]? = some v ∧ ps0[i]? = some p ∧ dataLogp p o = .ok (.fin d) ∧ Xi.cgpms = l ++ [p] ∧
      (cgpmI 2).outputs p = (cgpmI 2).outputs v ++ [o] ∧
      (∀ ps : List View, ps[i]? = some p → settle x [o] ps k i = .ok Xi) ∧
      (cgpmI 3).logpdfScore (whole Xi) = .ok (.fin (S + d - d0 -
        if 1 < ((cgpmI 2).outputs v0').length then 0 else s0))) := by
    intro i
    by_cases hik : i = k
    · exact ⟨x, d0, fun _ => ⟨rfl, rfl⟩, fun _ h => absurd hik h⟩
    by_cases hil : i < x.cgpms.length
    · obtain ⟨v, hv⟩ : ∃ v, x.cgpms[i]? = some v := ⟨_, List.getElem?_eq_getElem hil⟩
      obtain ⟨p, b1, b2, -, b4, d, s, b5, b6, b7⟩ := e4 i v hv hik
      obtain ⟨X, v1, l, w, c1, c2, c3, c4, c5⟩ := settle_there h hk ho hv hik b1 b2 b4
      rw [r1] at c2
      cases c2
      obtain ⟨S', d', s', f1, f2, f3, f4⟩ := moved_score h m0 ho r1 c4 c5 b6 b7
      rw [hS] at f1
      rw [a1] at f2
      rw [a2] at f3
      injection f1 with f1
      injection f1 with f1
      injection f2 with f2
      injection f2 with f2
      injection f3 with f3
      injection f3 with f3
      have f5 : s' = s0 := by linarith
      subst f1 f2 f5
      refine ⟨X, d, fun e => absurd e hik, fun _ _ => ⟨v, p, l, hv, b1, b5, c3, b4, fun ps hps => ?_, f4⟩⟩
      obtain ⟨X', v1, l', w', c1', -, -, -, -⟩ := settle_there h hk ho hv hik hps b2 b4
      rw [← c1]
      unfold settle
      rw [show item ps i = .ok p by unfold item; rw [hps], show item ps0 i = .ok p by unfold item; rw [b1]]
    · exact ⟨x, 0, fun e => absurd e hik, fun e => absurd e hil⟩
  choose X D hXD using key
  have hkl : k < x.cgpms.length := (List.getElem?_eq_some_iff.1 hk).1
  have hDk := ((hXD k).1 rfl).2
  refine ⟨ps0, X, D, S, s0, ¬ 1 < ((cgpmI 2).outputs v0').length, e1, e2, hS, ((hXD k).1 rfl).1, by rw [hDk]; exact a2,
    e3, fun i p hp => ?_, fun i hi => ?_, fun i hi ps hps => ?_, fun i hi hik => ?_, ?_⟩
  · have hi : i < x.cgpms.length := e2 ▸ (List.getElem?_eq_some_iff.1 hp).1
    by_cases hik : i = k
    · subst hik
      rw [e3] at hp
      cases hp
      rw [hDk]
      exact a1
    · obtain ⟨v, p', l, b1, b2, b3, -⟩ := (hXD i).2 hi hik
      rw [hp] at b2
      cases b2
      exact b3
  · by_cases hik : i = k
    · subst hik
      refine ⟨0, fun h => absurd rfl h, fun _ => rfl, ?_⟩
      rw [((hXD i).1 rfl).1, hS]
      simp
    · obtain ⟨v, p', l, -, -, -, -, -, -, b6⟩ := (hXD i).2 hi hik
      refine ⟨if 1 < ((cgpmI 2).outputs v0').length then 0 else s0, fun _ hal => if_neg hal, fun hor => ?_, ?_⟩
      · rcases hor with e | e
        · exact absurd e hik
        · exact if_pos (not_not.1 e)
      · rw [b6, hDk]
  · by_cases hik : i = k
    · subst hik
      rw [e3] at hps
      have := settle_run (x' := x) (outs := [o]) hk hps (.inl rfl)
      rw [if_pos rfl] at this
      rw [this, ((hXD i).1 rfl).1]
    · obtain ⟨v, p', l, -, b2, -, -, -, b5, -⟩ := (hXD i).2 hi hik
      exact b5 ps (hps.trans b2)
  · obtain ⟨v, p', l, b1, b2, -, b4, b5, -⟩ := (hXD i).2 hi hik
    exact ⟨l, p', v, b4, b1, b5⟩
  · have hn := (cgpmTLaws Z 2).nodup _ (h.viewReg m0)
    rw [remove_outputs hf r1]
    unfold viewColumns at ho ⊢
    rw [hf.outputs] at ho hn ⊢
    rw [List.tail_cons] at ho ⊢
    rw [List.nodup_cons] at hn
    have hone : ∀ n : Nat, n + 1 ≤ 1 ↔ n = 0 := by omega
    rw [List.filter_cons_of_pos (by simpa using hoi.symm), List.length_cons, not_lt, hone, List.length_eq_zero_iff]
    constructor
    · intro he
      have hall : ∀ a ∈ q.cgpms.flatMap (cgpmI 0).outputs, a = o := by
        intro a ha
        have := List.filter_eq_nil_iff.1 he a ha
        simpa using this
      rcases hq : q.cgpms.flatMap (cgpmI 0).outputs with _ | ⟨a, _ | ⟨b, t⟩⟩
      · rw [hq] at ho; cases ho
      · rw [hall a (by rw [hq]; simp)]
      · exfalso
        have h1 := hall a (by rw [hq]; simp)
        have h2 := hall b (by rw [hq]; simp)
        have := hn.2
        rw [hq, h1, h2] at this
        simp at this
    · intro he
      rw [he]
      simp

theorem Moves.injective {x : Crosscat} (h : CC Z x) {o : Var} {k : Nat} {v0 : View} {ps0 : List View}
    {X : Nat → Crosscat} {D : Nat → ℝ} {S s0 : ℝ} {alone : Prop} (hk : x.cgpms[k]? = some v0) (ho : o ∈ viewColumns v0)
    (hm : Moves x o k v0 ps0 X D S s0 alone) {i j : Nat} (hi : i < x.cgpms.length) (hj : j < x.cgpms.length)
    (e : X i = X j) : i = j := by
  have hhead : ∀ {v p : View}, v ∈ x.cgpms → (cgpmI 2).outputs p = (cgpmI 2).outputs v ++ [o] →
      ((cgpmI 2).outputs v).headD 0 = ((cgpmI 2).outputs p).headD 0 := by
    intro v p hv hp
    rw [hp]
    have hne : (cgpmI 2).outputs v ≠ [] := (cgpmFrame Z 2).some v (h.viewReg hv)
    rcases hv : (cgpmI 2).outputs v with _ | ⟨a, l⟩
    · exact absurd hv hne
    · rfl
  have one : ∀ {i : Nat}, i < x.cgpms.length → i ≠ k → X i ≠ x := by
    intro i hi hik he
    obtain ⟨l, p, v, b1, b2, b3⟩ := hm.last i hi hik
    rw [he] at b1
    have hp : p ∈ x.cgpms := by rw [b1]; simp
    obtain ⟨n, hn⟩ := List.mem_iff_getElem?.1 hp
    have h1 : n = k := index_unique h.nodup hn hk (o := o) (by rw [b3]; simp) (columns_sub ho)
    have h2 : n = i := by
      refine index_unique h.nodup hn b2 (o := ((cgpmI 2).outputs v).headD 0) ?_ (h.head_mem (List.mem_of_getElem? b2))
      rw [hhead (List.mem_of_getElem? b2) b3]
      exact h.head_mem hp
    exact hik (h2.symm.trans h1)
  by_cases hik : i = k
  · by_cases hjk : j = k
    · rw [hik, hjk]
    · rw [hik, hm.stay] at e
      exact absurd e.symm (one hj hjk)
  · by_cases hjk : j = k
    · rw [hjk, hm.stay] at e
      exact absurd e (one hi hik)
    · obtain ⟨l, p, v, b1, b2, b3⟩ := hm.last i hi hik
      obtain ⟨l', p', v', b1', b2', b3'⟩ := hm.last j hj hjk
      rw [e, b1'] at b1
      obtain ⟨-, h2⟩ := List.append_inj' b1 rfl
      injection h2 with h2
      subst h2
      have hv := List.mem_of_getElem? b2
      have hv' := List.mem_of_getElem? b2'
      refine index_unique h.nodup b2 b2' (o := ((cgpmI 2).outputs v).headD 0) (h.head_mem hv) ?_
      rw [hhead hv b3, ← hhead hv' b3']
      exact h.head_mem hv'

/-- What a step gives, once the proposals are made. -/
theorem transition_eval {x : Crosscat} (h : CC Z x) {o : Var} {k : Nat} {v0 : View} (hk : x.cgpms[k]? = some v0)
    (ho : o ∈ viewColumns v0) {aux : Nat} {ps : List View} {g g1 : Rng}
    (hp : proposals [o] aux (x, g) = (.ok ps, (x, g1))) {l : List Fl}
    (hl : ps.mapM (fun view => dataLogp view o) = .ok l) (y : Crosscat) :
    (transitionViewAssignments [o] aux (x, g)).1 = .ok y ↔
      ∃ i, (logPflipIdx l g1).1 = .ok i ∧ settle x [o] ps k i = .ok y := by
  have hvi := viewIndex_total h (outs := [o]) (by simp) hk (by simpa using ho)
  have hl' : ps.mapM (fun view => (do
      let l ← [o].mapM fun output => dataLogp view output
      pure (Fl.sum l) : Except Err Fl)) = .ok l := by
    have hz : ∀ a : Fl, Fl.sum [a] = a := by intro a; simp [Fl.sum]
    have : (fun view => (do
      let l ← [o].mapM fun output => dataLogp view output
      pure (Fl.sum l) : Except Err Fl)) = fun view => dataLogp view o := by
      funext view
      rcases hd : dataLogp view o with e | a
      · simp [hd, bind, Except.bind]
      · simp [hd, bind, Except.bind, pure, Except.pure, hz]
    rw [this, hl]
  unfold transitionViewAssignments
  rw [Py.bind_apply, hp]
  dsimp only
  rw [Py.lift_bind, hl']
  dsimp only
  rw [Py.get_bind]
  dsimp only
  rw [Py.lift_bind, hvi]
  dsimp only
  rw [Py.bind_apply]
  unfold Py.onSnd
  dsimp only
  rcases hf : logPflipIdx l g1 with ⟨_ | i, g2⟩
  · simp
  · simp [Py.lift]

theorem proposals_split {x x1 : Crosscat} {o : Var} {ps0 ps : List View} {aux : Nat} {g g1 : Rng}
    (hr : ∀ g, proposalsExisting [o] (x, g) = (.ok ps0, (x, g)))
    (hp : proposals [o] aux (x, g) = (.ok ps, (x1, g1))) : x1 = x ∧ ∃ si, ps = ps0 ++ si := by
  unfold proposals at hp
  obtain ⟨ex, ⟨xa, ga⟩, e1, hp⟩ := run_bind hp
  obtain ⟨si, ⟨xb, gb⟩, e2, hp⟩ := run_bind hp
  cases hp
  rw [hr] at e1
  cases e1
  unfold proposalsSingleton at e2
  obtain ⟨⟨xc, gc⟩, s1, e3, e2⟩ := run_bind e2
  cases e3
  dsimp only at e2
  obtain ⟨⟨bases', datasets'⟩, s1, e3, e2⟩ := run_bind e2
  obtain ⟨hb', rfl⟩ := lift_ok e3
  obtain ⟨hsi, rfl⟩ := onSnd_ok e2
  exact ⟨rfl, si, rfl⟩

theorem proposals_none {x : Crosscat} {o : Var} {ps0 : List View} (hr : ∀ g, proposalsExisting [o] (x, g) = (.ok ps0, (x, g)))
    {bs : List Prim × List (List (RowId × Dict Var Val))} (hb : basesOf x [o] = .ok bs) (g : Rng) :
    proposals [o] 0 (x, g) = (.ok ps0, (x, g)) := by
  unfold proposals
  rw [Py.bind_apply, hr]
  dsimp only
  rw [Py.bind_apply]
  unfold proposalsSingleton
  rw [Py.get_bind]
  dsimp only
  rw [Py.lift_bind, hb]
  change (Except.ok (ps0 ++ []), (x, g)) = _
  rw [List.append_nil]

theorem sum_range (D : Nat → ℝ) (n : Nat) : ((List.range n).map D).sum = ∑ j ∈ Finset.range n, D j := by
  induction n with
  | zero => rfl
  | succ n ih => rw [List.range_succ, List.map_append, List.sum_append, ih, Finset.sum_range_succ]; simp

/-- The chance of each view. -/
theorem Moves.law {x : Crosscat} (h : CC Z x) {o : Var} {k : Nat} {v0 : View} {ps0 : List View}
    {X : Nat → Crosscat} {D : Nat → ℝ} {S s0 : ℝ} {alone : Prop} (hk : x.cgpms[k]? = some v0) (ho : o ∈ viewColumns v0)
    (hm : Moves x o k v0 ps0 X D S s0 alone) {aux : Nat} {ps : List View} {x1 : Crosscat} {G : ℝ → Rng} {g1 : Rng}
    (hG : ∀ u ∈ Set.Ico (0 : ℝ) 1, proposals [o] aux (x, G u) = (.ok ps, (x1, withUniform u g1)))
    (hz : ∀ i p, ps[i]? = some p → x.cgpms.length ≤ i → ((cgpmI 2).outputs p).headD 0 ≠ o)
    (hal : ¬ alone ∨ ps = ps0) :
    ∃ W : ℝ, 0 ≤ W ∧ (ps = ps0 → W = 0) ∧ ∀ i < x.cgpms.length,
      chance (fun u => (transitionViewAssignments [o] aux (x, G u)).1 = .ok (X i)) =
        ENNReal.ofReal (Real.exp (D i) / (∑ j ∈ Finset.range x.cgpms.length, Real.exp (D j) + W)) := by
  have hcol : ∀ a ∈ [o], a ∈ columns x := fun a h' => by
    rw [List.mem_singleton.1 h']; exact mem_columns.2 ⟨v0, List.mem_of_getElem? hk, ho⟩
  obtain ⟨rfl, si, hps⟩ := proposals_split hm.run (hG 0 (by simp))
  obtain ⟨-, -, cur, hcur, -, hsi⟩ := proposals_ok h (outs := [o]) (by simp) hcol (hG 0 (by simp))
  have hlen := hm.len
  have hlog : ∀ p ∈ ps, ∃ d : ℝ, dataLogp p o = .ok (.fin d) := by
    intro p hp
    obtain ⟨j, hj⟩ := List.mem_iff_getElem?.1 hp
    by_cases hjl : j < x1.cgpms.length
    · rw [hps, List.getElem?_append_left (by omega)] at hj
      exact ⟨_, hm.logp j p hj⟩
    · obtain ⟨z, hz1, hz2⟩ := hsi j p hj (by omega)
      have hzo := hz j p hj (by omega)
      rw [hz1] at hzo
      exact ⟨_, dataLogp_eq (hz2 (by simpa using hzo)).reg (by rw [hz1]; simp)⟩
  obtain ⟨l, l1, l2⟩ := mapM_total (l := ps) (P := fun y => ∃ a : ℝ, y = .fin a) (f := fun view => dataLogp view o)
    (fun p hp => by
      obtain ⟨d, hd⟩ := hlog p hp
      exact ⟨_, hd, d, rfl⟩)
  have hpl : l.length = ps.length := (mapM_ok_forall l1).length_eq.symm
  have hge : ∀ i, i < x1.cgpms.length → l[i]? = some (.fin (D i)) := by
    intro i hi
    have hi0 : i < ps0.length := by omega
    have h1 : ps[i]? = some ps0[i] := by
      rw [hps, List.getElem?_append_left hi0, List.getElem?_eq_getElem hi0]
    have h2 := hm.logp i ps0[i] (List.getElem?_eq_getElem hi0)
    have hip : i < ps.length := (List.getElem?_eq_some_iff.1 h1).1
    have h3 := List.Forall₂.get (mapM_ok_forall l1) hip (by omega)
    have h4 : ps[i] = ps0[i] := (List.getElem?_eq_some_iff.1 h1).2
    simp only [List.get_eq_getElem, h4, h2, Except.ok.injEq] at h3
    rw [List.getElem?_eq_getElem (by omega), ← h3]
  have htake : l.take x1.cgpms.length = (List.range x1.cgpms.length).map fun j => Fl.fin (D j) := by
    refine List.ext_getElem? fun i => ?_
    rw [List.getElem?_take]
    split
    · rename_i hi
      rw [hge i hi]
      simp [hi]
    · rename_i hi
      rw [List.getElem?_eq_none (by simpa using hi)]
  have hlp : ∀ y ∈ l, y.IsLogP := fun y hy => by
    obtain ⟨a, rfl⟩ := l2 y hy
    trivial
  have hkl : k < x1.cgpms.length := (List.getElem?_eq_some_iff.1 hk).1
  have hps0 : x1.cgpms.length ≤ ps.length := by rw [hps, List.length_append]; omega
  have hsum : (l.map Fl.exp).sum = ∑ j ∈ Finset.range x1.cgpms.length, Real.exp (D j) +
      ((l.drop x1.cgpms.length).map Fl.exp).sum := by
    rw [← sum_range]
    conv_lhs => rw [← List.take_append_drop x1.cgpms.length l]
    rw [List.map_append, List.sum_append, htake, List.map_map]
    rfl
  have hpos : 0 < (l.map Fl.exp).sum := by
    refine List.sum_pos _ (fun p hp => ?_) (by
      intro e
      have := congrArg List.length e
      simp at this
      rw [this] at hpl
      simp at hpl
      omega)
    obtain ⟨y, hy, rfl⟩ := List.mem_map.1 hp
    obtain ⟨a, rfl⟩ := l2 y hy
    exact Real.exp_pos a
  refine ⟨((l.drop x1.cgpms.length).map Fl.exp).sum, List.sum_nonneg (fun p hp => ?_), fun e => ?_, fun i hi => ?_⟩
  · obtain ⟨y, hy, rfl⟩ := List.mem_map.1 hp
    obtain ⟨a, rfl⟩ := l2 y (List.mem_of_mem_drop hy)
    exact (Real.exp_pos a).le
  · rw [List.drop_eq_nil_of_le (by rw [hpl, e]; omega)]
    rfl
  · have hev : ∀ u ∈ Set.Ico (0 : ℝ) 1, ((transitionViewAssignments [o] aux (x1, G u)).1 = .ok (X i) ↔
        (logPflipIdx l (withUniform u g1)).1 = .ok i) := by
      intro u hu
      rw [transition_eval h hk ho (hG u hu) l1]
      constructor
      · rintro ⟨j, hj, hs⟩
        have hjl := logPflipIdx_lt hj
        by_cases hjn : j < x1.cgpms.length
        · have h1 := hm.goal j hjn ps (by rw [hps, List.getElem?_append_left (by omega)])
          rw [hs] at h1
          rw [hm.injective h hk ho hi hjn (Except.ok.inj h1)]
          exact hj
        · exfalso
          rcases hal with hal | hal
          swap
          · rw [hal] at hpl; omega
          obtain ⟨w0, T, c1, c2, c3⟩ := settle_ok hs
          rcases c3 with ⟨c3, -⟩ | ⟨-, v0', y1, y2, -, -, -, c3⟩
          · omega
          rcases c3 with ⟨-, c3⟩ | ⟨c3, -⟩
          swap
          · omega
          have q4 := (putView_ok c3).1
          obtain ⟨z, hz1, -⟩ := hsi j T c2 (by omega)
          by_cases hik : i = k
          · subst hik
            rw [hm.stay] at q4
            have hT : T ∈ x1.cgpms := by rw [q4]; simp
            obtain ⟨n, hn⟩ := List.mem_iff_getElem?.1 hT
            have h1 : n = i := index_unique h.nodup hn hk (o := o) (by rw [hz1]; simp) (columns_sub ho)
            rw [h1, hk] at hn
            cases hn
            refine hal (hm.lone.2 ?_)
            unfold viewColumns
            rw [hz1]
            rfl
          · obtain ⟨l', p, v, b1, b2, b3⟩ := hm.last i hi hik
            rw [b1] at q4
            obtain ⟨-, h2⟩ := List.append_inj' q4 rfl
            injection h2 with h2
            subst h2
            have hv := List.mem_of_getElem? b2
            have h3 := h.nonempty hv
            have h4 := congrArg List.length (b3.symm.trans hz1)
            have h5 := List.length_pos_iff.2 h3
            unfold viewColumns at h5
            simp at h4 h5
            omega
      · exact fun e => ⟨i, e, hm.goal i hi ps (by rw [hps, List.getElem?_append_left (by omega)])⟩
    rw [chance_congr hev, chance_logPflipIdx l hlp hpos g1 i (by omega), hsum]
    congr 2
    rw [List.getD_eq_getElem?_getD, List.getElem?_map, hge i hi]
    rfl

end Cgpm2.Views
