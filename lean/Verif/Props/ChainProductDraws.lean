import Verif.Props.ChainProduct

/-!
# C122 A chain without edges and a product of the same members draw the same samples
-/

namespace Cgpm2

namespace ChainProduct
open Spec

/-- What a member contributed to the merged sample. -/
def Part (I : Iface S) (full : Dict Var Val) (b : S) (d : Dict Var Val) : Prop :=
  (Dict.keys d).Nodup ∧ (∀ v ∈ Dict.keys d, v ∈ I.outputs b) ∧
    ∀ v ∈ I.outputs b, Dict.get? d v = Dict.get? full v

theorem each_draws {S : Type} {I : Iface S} {r : RowId} {ts : List Var} {ins full : Dict Var Val}
    (hd' : (Dict.keys ins).Nodup) {bs : List S} {g g' : Rng} (h : Ancestral I r ts ins full bs g g')
    (hR : ∀ b ∈ bs, ReturnsTargets I r b) (hi : ∀ b ∈ bs, ∀ i ∈ I.inputs b, i ∉ Dict.keys full) :
    ∃ ds bs', Py.each.go (simulateOne I r ts [] ins none) bs g = (.ok (ds.map SimOut.one), (bs', g')) ∧
      List.Forall₂ (Part I full) bs ds := by
  induction h with
  | nil g => exact ⟨[], [], rfl, .nil⟩
  | @skip b bs g g' h hf rest ih =>
    obtain ⟨ds, bs', h1, h2⟩ := ih (fun b hb => hR b (by simp [hb])) fun b hb => hi b (by simp [hb])
    have e : getIntersectionL (I.outputs b) ts = [] :=
      List.filter_eq_nil_iff.2 fun v hv => by simpa using h v hv
    have hb : simulateOne I r ts [] ins none (b, g) = (.ok (.one []), (b, g)) := by
      unfold simulateOne
      rw [Py.bind_apply, Py.get_apply]
      dsimp only
      rw [if_pos e]
      rfl
    refine ⟨[] :: ds, b :: bs', ?_, .cons ⟨by simp [Dict.keys], by simp [Dict.keys], fun v hv => (hf v hv).symm⟩ h2⟩
    unfold Py.each.go
    rw [hb]
    dsimp only
    rw [h1]
    rfl
  | @draw b b' bs g g₁ g' s h hs hf rest ih =>
    obtain ⟨ds, bs', h1, h2⟩ := ih (fun b hb => hR b (by simp [hb])) fun b hb => hi b (by simp [hb])
    have e : getIntersectionL (I.outputs b) ts ≠ [] := by
      obtain ⟨v, hv, hv'⟩ := h
      exact List.ne_nil_of_mem (a := v) (List.mem_filter.2 ⟨hv, by simpa using hv'⟩)
    have hmer : merged (only (I.inputs b) ins) (only (I.inputs b) full) = only (I.inputs b) ins := by
      rw [only_nil_iff.2 (hi b (by simp))]
      exact Dict.update_nil_left _ (only_nodup hd')
    rw [hmer] at hs
    have hb : simulateOne I r ts [] ins none (b, g) = (.ok (.one s), (b', g₁)) := by
      unfold simulateOne
      rw [Py.bind_apply, Py.get_apply]
      dsimp only
      rw [if_neg e]
      exact hs
    obtain ⟨n1, n2⟩ := hR b (by simp) _ _ g s _ (fun v hv => by simpa using (List.mem_filter.1 hv).2)
      (fun k hk => by
        obtain ⟨kv, hkv, rfl⟩ := List.mem_map.1 hk
        simpa using (List.mem_filter.1 hkv).2) hs
    refine ⟨s :: ds, b' :: bs', ?_, .cons ⟨n1, fun v hv => by
      simpa using (List.mem_filter.1 (n2 v hv)).2, fun v hv => (hf v hv).symm⟩ h2⟩
    unfold Py.each.go
    rw [hb]
    dsimp only
    rw [h1]
    rfl

theorem foldl_part {F : Option Val} {v : Var} (ds : List (Dict Var Val)) (hn : ∀ d ∈ ds, (Dict.keys d).Nodup)
    (h : ∀ d ∈ ds, Dict.get? d v = none ∨ Dict.get? d v = F) (acc : Dict Var Val)
    (ha : Dict.get? acc v = none ∨ Dict.get? acc v = F) :
    (Dict.get? (ds.foldl Dict.update acc) v = none ∨ Dict.get? (ds.foldl Dict.update acc) v = F) ∧
    ((Dict.get? acc v = F ∨ ∃ d ∈ ds, Dict.get? d v = F) → Dict.get? (ds.foldl Dict.update acc) v = F) := by
  induction ds generalizing acc with
  | nil => exact ⟨ha, fun h => h.elim id fun ⟨_, h, _⟩ => nomatch h⟩
  | cons d ds ih =>
    have hu := Dict.get?_update acc d (hn d (by simp)) v
    have hd := h d (by simp)
    have key : (Dict.get? (Dict.update acc d) v = none ∨ Dict.get? (Dict.update acc d) v = F) ∧
        ((Dict.get? acc v = F ∨ Dict.get? d v = F) → Dict.get? (Dict.update acc d) v = F) := by
      rw [hu]
      rcases hx : Dict.get? d v with _ | x
      · dsimp only
        refine ⟨ha, fun h => ?_⟩
        rcases h with h | h
        · exact h
        · subst h
          rcases ha with h | h <;> exact h
      · rw [hx] at hd
        rcases hd with hd | hd
        · cases hd
        · exact ⟨.inr hd, fun _ => hd⟩
    obtain ⟨i1, i2⟩ := ih (fun d hd => hn d (by simp [hd])) (fun d hd => h d (by simp [hd])) _ key.1
    refine ⟨i1, fun h => i2 ?_⟩
    rcases h with h | ⟨e, he, hF⟩
    · exact .inl (key.2 (.inl h))
    · rcases List.mem_cons.1 he with rfl | he
      · exact .inl (key.2 (.inr hF))
      · exact .inr ⟨e, he, hF⟩

theorem mergeSamples_one {ds : List (Dict Var Val)} (h : ds ≠ []) :
    mergeSamples (ds.map SimOut.one) = .ok (.one (mergedl ds)) := by
  cases ds with
  | nil => exact absurd rfl h
  | cons d ds =>
    have : (ds.map SimOut.one).mapM (fun s : SimOut => match s with
        | .one d => Except.ok d
        | .many _ => Except.error Err.typeError) = .ok ds := by
      clear h
      induction ds with
      | nil => rfl
      | cons e ds ih =>
        rw [List.map_cons, List.mapM_cons, ih]
        rfl
    rw [List.map_cons]
    unfold mergeSamples
    dsimp only
    exact congrArg (fun x : Except Err (List (Dict Var Val)) => x >>= fun ds =>
      pure (SimOut.one (mergedl (d :: ds)))) this

theorem part_of {S : Type} {Q : S → Dict Var Val → Prop} {l : List S} {ds : List (Dict Var Val)}
    (h : List.Forall₂ Q l ds) : (∀ d ∈ ds, ∃ b ∈ l, Q b d) ∧ ∀ b ∈ l, ∃ d ∈ ds, Q b d := by
  induction h with
  | nil => exact ⟨by simp, by simp⟩
  | @cons b d l ds h _ ih =>
    refine ⟨fun e he => ?_, fun e he => ?_⟩
    · rcases List.mem_cons.1 he with rfl | he
      · exact ⟨b, by simp, h⟩
      · obtain ⟨x, hx, hq⟩ := ih.1 e he
        exact ⟨x, by simp [hx], hq⟩
    · rcases List.mem_cons.1 he with rfl | he
      · exact ⟨d, by simp, h⟩
      · obtain ⟨x, hx, hq⟩ := ih.2 e he
        exact ⟨x, by simp [hx], hq⟩

theorem filterMap_range {S : Type} (l : List S) : (List.range l.length).filterMap (l[·]?) = l := by
  induction l with
  | nil => rfl
  | cons a l ih =>
    rw [List.length_cons, List.range_succ_eq_map, List.filterMap_cons]
    simp only [List.getElem?_cons_zero, List.filterMap_map]
    congr 1

end ChainProduct

namespace Props
open Spec ChainProduct

/-- A chain with accuracy 1 whose topological order is the order of its members, and a product of the
same members, draw the same sample without constraints and leave the same random state behind. -/
theorem C122_simulate {ch : Chain Member} {p : Product Member}
    (hp : Product.init memberI ch.cgpms = .ok p) (hn : NetworkOk memberI ch)
    (hm : ∀ b ∈ ch.cgpms, MemberOk b) {r : RowId} (hR : ∀ b ∈ ch.cgpms, ReturnsTargets memberI r b)
    (ha : ch.accuracy = 1) (ht : ch.net.topo = List.range ch.cgpms.length) {ts : List Var}
    (hne : ts ≠ []) (hts : ∀ v ∈ ts, v ∈ Chain.outputs memberI ch) {ins s : Dict Var Val}
    (hd' : (Dict.keys ins).Nodup) {g g' : Rng} {ch' : Chain Member}
    (h : Chain.simulate memberI r ts [] ins none (ch, g) = (.ok (.one s), (ch', g'))) :
    ∃ s' p', Product.simulate memberI r ts [] ins none (p, g) = (.ok (.one s'), (p', g')) ∧
      ∀ v, Dict.get? s' v = Dict.get? s v := by
  obtain ⟨rfl, hio⟩ := init_ok hp
  have hreq : ch.net.required ts [] = [] := by
    refine List.eq_nil_iff_forall_not_mem.2 fun v hv => ?_
    obtain ⟨h1, h2, -⟩ := (hn.required ts [] v).1 hv
    refine hio v ?_ h2
    cases h1 with
    | direct hb _ _ hi => exact List.mem_flatMap.2 ⟨_, hb, hi⟩
    | further hb _ _ hi => exact List.mem_flatMap.2 ⟨_, hb, hi⟩
  obtain ⟨full, hA, hk, hs⟩ := C88 hn hm hR ha h
  rw [hreq, List.append_nil] at hA hk
  rw [ht, filterMap_range] at hA
  obtain ⟨ds, bs', h1, h2⟩ := each_draws hd' hA hR fun b hb i hi hf =>
    hio i (List.mem_flatMap.2 ⟨b, hb, hi⟩) (hts i ((hk i).1 hf))
  have hds : ds ≠ [] := by
    rintro rfl
    obtain ⟨v, hv⟩ := List.exists_mem_of_ne_nil _ hne
    obtain ⟨b, hb, -⟩ := List.mem_flatMap.1 (hts v hv)
    have := List.forall₂_nil_right_iff.1 h2
    rw [this] at hb
    cases hb
  refine ⟨mergedl ds, ⟨bs'⟩, ?_, fun v => ?_⟩
  · unfold Product.simulate Product.each
    rw [Py.bind_apply]
    unfold Py.onAttr Py.each
    dsimp only
    rw [h1]
    dsimp only
    rw [mergeSamples_one hds]
    rfl
  · have hf : Dict.get? s v = Dict.get? full v := by
      rw [hs]
      split
      · rfl
      · next hv => exact ((Dict.get?_eq_none_iff _ _).2 fun h => hv ((hk v).1 h)).symm
    rw [hf]
    have hpart : ∀ d ∈ ds, (Dict.keys d).Nodup ∧
        (Dict.get? d v = none ∨ Dict.get? d v = Dict.get? full v) := by
      intro d hd
      obtain ⟨b, -, hb⟩ := (part_of h2).1 d hd
      refine ⟨hb.1, ?_⟩
      by_cases hv : v ∈ memberI.outputs b
      · exact .inr (hb.2.2 v hv)
      · exact .inl ((Dict.get?_eq_none_iff _ _).2 fun h => hv (hb.2.1 v h))
    obtain ⟨i1, i2⟩ := foldl_part ds (fun d hd => (hpart d hd).1) (fun d hd => (hpart d hd).2) []
      (.inl rfl)
    by_cases hv : v ∈ ts
    · obtain ⟨b, hb, hvb⟩ := List.mem_flatMap.1 (hts v hv)
      obtain ⟨d, hd, hbd⟩ := (part_of h2).2 b hb
      exact i2 (.inr ⟨d, hd, hbd.2.2 v hvb⟩)
    · have hnone : Dict.get? full v = none := (Dict.get?_eq_none_iff _ _).2 fun h => hv ((hk v).1 h)
      rw [hnone] at i1 ⊢
      exact i1.elim id id

/-! The variable with three values beside a regression, with accuracy 1. -/

noncomputable def _root_.Cgpm2.Concrete.sideChain1 : Chain Member :=
  Chain.init Concrete.sideMembers none ⟨[0, 1], fun _ _ => []⟩

theorem _root_.Cgpm2.Concrete.side_draws (g : Rng) : ∃ q x ch' g', Chain.simulate memberI none [7, 3] [] Concrete.sideIns none
    (Concrete.sideChain1, g) = (.ok (.one [(7, .num q), (3, x)]), (ch', g')) := by
  obtain ⟨x, g1, h1⟩ : ∃ x g1, Prim.simulate (.categorical (Categorical.init [3] [] [] [] 3)) none [3] [] [] none g =
      (.ok (.one [(3, x)]), g1) := by
    have : ∃ i g1, pflipIdx (Categorical.init [3] [] [] [] 3).simulateWeights g = (.ok i, g1) := by
      obtain ⟨k, g1, h, -, -⟩ := pflipIdx_ok (Categorical.init [3] [] [] [] 3).simulateWeights
        (by simp [Categorical.simulateWeights, Categorical.init, List.replicate])
        (by simp [Categorical.simulateWeights, Categorical.init]) (by
          simp [Categorical.simulateWeights, Categorical.init]; norm_num) g
      exact ⟨k, _, h⟩
    obtain ⟨i, g1, hi⟩ := this
    refine ⟨.num i, g1, ?_⟩
    have e : Prim.simulate (.categorical (Categorical.init [3] [] [] [] 3)) none [3] [] [] none g =
      ((do let i ← pflipIdx (Categorical.init [3] [] [] [] 3).simulateWeights
           pure (.one [(3, .num ((i : Nat) : ℚ))]) : Py Rng SimOut) g) := by
        change ((do let i ← pflipIdx (Categorical.init [3] [] [] [] 3).simulateWeights
                    pure ([(3, .num ((i : Nat) : ℚ))]) : Py Rng _) >>= fun s => pure (SimOut.one s)) g = _
        rw [Py.bind_apply, Py.bind_apply, Py.bind_apply, hi]; rfl
    rw [e, Py.bind_apply, hi]; rfl
  obtain ⟨out, g2, h2, h3, h4, h5⟩ := C82 Concrete.reg0_history (o := 7) rfl none
    (ins := [(1, .num 2), (2, .num 1)]) (y := [.num 1, .num 2, .num 0, .num 1]) rfl none g1
  obtain ⟨s, rfl⟩ := h4.2 rfl
  obtain ⟨q, rfl⟩ := (h5 s (by simp [samplesOf])).2 rfl
  have e1 : Chain.invokeCgpm memberI none [7, 3] [] Concrete.sideIns
      (.tower 0 (.categorical (Categorical.init [3] [] [] [] 3) : Prim), g) =
      (.ok ([(3, x)], 0), (.tower 0 (.categorical (Categorical.init [3] [] [] [] 3) : Prim), g1)) := by
    have e : Chain.invokeCgpm memberI none [7, 3] [] Concrete.sideIns
      (.tower 0 (.categorical (Categorical.init [3] [] [] [] 3) : Prim), g) =
       (match Prim.simulate (.categorical (Categorical.init [3] [] [] [] 3)) none [3] [] [] none g with
        | (.ok (.one s), g') => (.ok (s, 0), (.tower 0 (.categorical (Categorical.init [3] [] [] [] 3) : Prim), g'))
        | (.ok (.many s), g') => (.error .typeError, (.tower 0 (.categorical (Categorical.init [3] [] [] [] 3) : Prim), g'))
        | (.error e, g') => (.error e, (.tower 0 (.categorical (Categorical.init [3] [] [] [] 3) : Prim), g'))) := by
      have e3 : memberI.simulate none [3] [] [] none (.tower 0 (.categorical (Categorical.init [3] [] [] [] 3) : Prim), g) = ((Prim.simulate (.categorical (Categorical.init [3] [] [] [] 3)) none [3] [] [] none g).1, (.tower 0 (.categorical (Categorical.init [3] [] [] [] 3) : Prim), (Prim.simulate (.categorical (Categorical.init [3] [] [] [] 3)) none [3] [] [] none g).2)) := rfl
      change ((memberI.simulate none [3] [] [] none >>= fun out => match out with
        | .one s => pure s
        | .many _ => Py.throw .typeError) >>= fun s => pure (s, (0:Fl))) (_, g) = _
      rw [Py.bind_apply, Py.bind_apply, e3]
      rcases Prim.simulate (.categorical (Categorical.init [3] [] [] [] 3)) none [3] [] [] none g with ⟨e | s | s, g'⟩ <;> rfl
    rw [e, h1]
  have e2 : Chain.invokeCgpm memberI none [7, 3] [(3, x)] Concrete.sideIns (.linreg Concrete.reg0, g1) =
      (.ok ([(7, .num q)], 0), (.linreg Concrete.reg0, g2)) := by
    have e3 : memberI.simulate none [7] [] [(1, .num 2), (2, .num 1)] none (.linreg Concrete.reg0, g1) =
      ((Concrete.reg0.simulate none [7] [] [(1, .num 2), (2, .num 1)] none g1).1, (.linreg Concrete.reg0,
        (Concrete.reg0.simulate none [7] [] [(1, .num 2), (2, .num 1)] none g1).2)) := rfl
    change ((memberI.simulate none [7] [] [(1, .num 2), (2, .num 1)] none >>= fun out => match out with
        | .one s => pure s
        | .many _ => Py.throw .typeError) >>= fun s => pure (s, (0:Fl))) (_, g1) = _
    rw [Py.bind_apply, Py.bind_apply, e3, h2]
    rfl
  have e4 : Chain.levels memberI none [7, 3] Concrete.sideIns [0, 1] [] 0 (Concrete.sideChain1.cgpms, g) =
      (.ok ([(3, x), (7, .num q)], 0 + 0 + 0), (Concrete.sideChain1.cgpms, g2)) := by
    unfold Chain.levels
    have a1 : Py.atIndex 0 (Chain.invokeCgpm memberI none [7, 3] [] Concrete.sideIns) (Concrete.sideChain1.cgpms, g) =
        (.ok ([(3, x)], 0), (Concrete.sideChain1.cgpms, g1)) := by
      unfold Py.atIndex
      rw [show Concrete.sideChain1.cgpms = Concrete.sideMembers from rfl]
      dsimp only [Concrete.sideMembers]
      rw [List.getElem?_cons_zero]
      dsimp only
      rw [e1]
      rfl
    rw [Py.bind_apply, a1]
    dsimp only
    unfold Chain.levels
    have a2 : Py.atIndex 1 (Chain.invokeCgpm memberI none [7, 3] [(3, x)] Concrete.sideIns)
        (Concrete.sideChain1.cgpms, g1) = (.ok ([(7, .num q)], 0), (Concrete.sideChain1.cgpms, g2)) := by
      unfold Py.atIndex
      rw [show Concrete.sideChain1.cgpms = Concrete.sideMembers from rfl]
      dsimp only [Concrete.sideMembers]
      rw [List.getElem?_cons_succ, List.getElem?_cons_zero]
      dsimp only
      rw [e2]
      rfl
    rw [Py.bind_apply, show Dict.update ([] : Dict Var Val) [(3, x)] = [(3, x)] from rfl, a2]
    rfl
  have e5 : Chain.weightedSample memberI none [7, 3] [] Concrete.sideIns (Concrete.sideChain1, g) =
      (.ok ([(3, x), (7, .num q)], 0 + 0 + 0), (Concrete.sideChain1, g2)) := by
    change (Py.onAttr Chain.cgpms (fun c l => { c with cgpms := l })
      (Chain.levels memberI none [7, 3] Concrete.sideIns [0, 1] [] 0) >>= _) (Concrete.sideChain1, g) = _
    rw [Py.bind_apply]
    unfold Py.onAttr
    dsimp only
    rw [e4]
    rfl
  refine ⟨q, x, Concrete.sideChain1, g2, ?_⟩
  change (Chain.simulate1 memberI none [7, 3] [] Concrete.sideIns >>= _) _ = _
  rw [Py.bind_apply]
  unfold Chain.simulate1
  rw [Py.bind_apply]
  have e6 : Chain.weightedSamples memberI none [7, 3] [] Concrete.sideIns (Concrete.sideChain1, g) =
      (.ok [([(3, x), (7, .num q)], 0 + 0 + 0)], (Concrete.sideChain1, g2)) := by
    change (Chain.weightedSample memberI none [7, 3] [] Concrete.sideIns >>= fun y => pure [y]) (Concrete.sideChain1, g) = _
    rw [Py.bind_apply, e5]
    rfl
  rw [e6]
  dsimp only
  rw [if_neg (by rw [add_zero, add_zero]; simp [Fl.isInf, Fl.zero_def])]
  rfl

example (g : Rng) : ∃ s s' g' ch' p',
    Chain.simulate memberI none [7, 3] [] Concrete.sideIns none (Concrete.sideChain1, g) =
      (.ok (.one s), (ch', g')) ∧
    Product.simulate memberI none [7, 3] [] Concrete.sideIns none (⟨Concrete.sideMembers⟩, g) =
      (.ok (.one s'), (p', g')) ∧ ∀ v, Dict.get? s' v = Dict.get? s v := by
  obtain ⟨q, x, ch', g', h⟩ := Concrete.side_draws g
  have hn := Concrete.side_net
  obtain ⟨s', p', h1, h2⟩ := C122_simulate (ch := Concrete.sideChain1) Concrete.side_init
    ⟨hn.disjoint, hn.all, hn.order, hn.acyclic, hn.required⟩ Concrete.side_ok (r := none)
    (by
      intro b hb
      rcases Concrete.side_mem hb with rfl | rfl
      · exact C88_simple (.inl ⟨_, rfl, Concrete.side_legally⟩)
      · exact C88_simple (.inr (.inl ⟨_, rfl⟩)))
    rfl rfl (ts := [7, 3]) (by simp)
    (by change ∀ v ∈ ([7, 3] : List Var), v ∈ ([3, 7] : List Var); decide) (by decide) h
  exact ⟨_, s', g', ch', p', h, h1, h2⟩

end Props
end Cgpm2
