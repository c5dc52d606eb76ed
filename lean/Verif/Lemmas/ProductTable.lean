import Verif.Lemmas.Table
import Verif.Lemmas.ProductEval

/-!
# The table held by a product (helpers)
-/

namespace Cgpm2
open Spec

section
variable {α β : Type}

theorem map_eq_mapM (f : α → Except Err Fl) (l : List α) :
    (do let r ← l.mapM f; pure (Fl.sum r) : Except Err Fl) = (l.mapM f).map Fl.sum := by
  rcases l.mapM f with e | r <;> rfl

theorem sumE_cons (f : α → Except Err Fl) (a : α) (l : List α) (x : ℝ) :
    ((a :: l).mapM f).map Fl.sum = .ok (.fin x) ↔
      ∃ u v, f a = .ok (.fin u) ∧ (l.mapM f).map Fl.sum = .ok (.fin v) ∧ x = u + v := by
  rw [List.mapM_cons]
  rcases hf : f a with e | b
  · simp [bind, Except.bind, Except.map]
  · rcases hl : l.mapM f with e | bs
    · simp [bind, Except.bind, Except.map]
    · simp only [bind, Except.bind, pure, Except.pure, Except.map, Except.ok.injEq, Fl.sum_eq,
        List.sum_cons]
      constructor
      · intro h
        obtain ⟨⟨u, rfl⟩, v, hv⟩ := (Fl.add_fin_iff _ _).1 ⟨x, h⟩
        refine ⟨u, v, rfl, hv, ?_⟩
        rw [hv] at h
        exact (Fl.fin.inj h).symm
      · rintro ⟨u, v, rfl, hv, rfl⟩
        rw [hv]; rfl

theorem sum_chain (f k : α → Except Err Fl) (xs : List (α × β × α))
    (h : ∀ t ∈ xs, ∀ a b : ℝ, f t.1 = .ok (.fin a) → k t.1 = .ok (.fin b) →
      f t.2.2 = .ok (.fin (a + b))) {y x : ℝ}
    (hy : ((xs.map (·.1)).mapM f).map Fl.sum = .ok (.fin y))
    (hx : ((xs.map (·.1)).mapM k).map Fl.sum = .ok (.fin x)) :
    ((xs.map (·.2.2)).mapM f).map Fl.sum = .ok (.fin (y + x)) := by
  induction xs generalizing x y with
  | nil =>
    simp only [List.map_nil, List.mapM_nil, pure, Except.pure, Except.map, Fl.sum_eq, List.sum_nil,
      Fl.zero_def, Except.ok.injEq, Fl.fin.injEq] at *
    rw [← hx, ← hy]; simp
  | cons t xs ih =>
    simp only [List.map_cons] at *
    obtain ⟨a, y', h1, h2, rfl⟩ := (sumE_cons ..).1 hy
    obtain ⟨b, x', h3, h4, rfl⟩ := (sumE_cons ..).1 hx
    refine (sumE_cons ..).2 ⟨_, _, h t (by simp) a b h1 h3,
      ih (fun t ht => h t (by simp [ht])) h2 h4, by ring⟩

end

namespace Py
variable {S T α : Type}

/-- The runs of a loop that ends without an exception. -/
theorem each_ok {m : Py (S × T) α} {l l' : List S} {g g' : T} {as : List α}
    (h : Py.each m (l, g) = (.ok as, (l', g'))) : ∃ xs : List (S × α × S),
      xs.map (·.1) = l ∧ xs.map (·.2.1) = as ∧ xs.map (·.2.2) = l' ∧
      ∀ x ∈ xs, ∃ g1 g2, m (x.1, g1) = (.ok x.2.1, (x.2.2, g2)) := by
  induction l generalizing g as l' with
  | nil =>
    rw [each_nil] at h
    cases h
    exact ⟨[], rfl, rfl, rfl, by simp⟩
  | cons s l ih =>
    rw [each_cons] at h
    rcases hm : m (s, g) with ⟨_ | a, s1, g1⟩ <;> rw [hm] at h
    · cases h
    · dsimp only at h
      rcases he : Py.each m (l, g1) with ⟨_ | as', l1, g2⟩ <;> rw [he] at h
      · cases h
      · cases h
        obtain ⟨xs, h1, h2, h3, h4⟩ := ih he
        refine ⟨(s, a, s1) :: xs, by simp [h1], by simp [h2], by simp [h3], ?_⟩
        intro x hx
        rcases List.mem_cons.1 hx with rfl | hx
        · exact ⟨g, g1, hm⟩
        · exact h4 x hx

/-- A loop whose body neither fails nor draws. -/
theorem each_total {m : Py (S × T) α} {P : S → α → S → Prop} {l : List S} {g : T}
    (h : ∀ s ∈ l, ∃ a s', m (s, g) = (.ok a, (s', g)) ∧ P s a s') : ∃ xs : List (S × α × S),
      Py.each m (l, g) = (.ok (xs.map (·.2.1)), (xs.map (·.2.2), g)) ∧
      xs.map (·.1) = l ∧ ∀ x ∈ xs, P x.1 x.2.1 x.2.2 := by
  induction l with
  | nil => exact ⟨[], rfl, rfl, by simp⟩
  | cons s l ih =>
    obtain ⟨a, s', h1, h2⟩ := h s (by simp)
    obtain ⟨xs, h3, h4, h5⟩ := ih fun s hs => h s (by simp [hs])
    refine ⟨(s, a, s') :: xs, ?_, by simp [h4], ?_⟩
    · rw [each_cons, h1]
      dsimp only
      rw [h3]
      rfl
    · intro x hx
      rcases List.mem_cons.1 hx with rfl | hx
      · exact h2
      · exact h5 x hx

end Py

namespace ProdTab
variable {S : Type} {I : Iface S} {M : Sem S} {Z : List Var} {T : Tab S}

/-- The cell held by the first component that holds one. -/
def cell (T : Tab S) (l : List S) (r : RowId) (v : Var) : Option Val :=
  l.findSome? fun c => T.cell c r v

theorem cell_of_mem (K : TLaws I M Z T) {l : List S} (hR : ∀ c ∈ l, T.Reg c)
    (hn : (l.flatMap I.outputs).Nodup) {c : S} (hc : c ∈ l) {v : Var} (hv : v ∈ I.outputs c)
    (r : RowId) : cell T l r v = T.cell c r v := by
  induction l with
  | nil => simp at hc
  | cons d l ih =>
    rw [List.flatMap_cons, List.nodup_append] at hn
    obtain ⟨h1, h2, h3⟩ := hn
    have hR' : ∀ c ∈ l, T.Reg c := fun c hc => hR c (by simp [hc])
    unfold cell
    rw [List.findSome?_cons]
    rcases List.mem_cons.1 hc with rfl | hc
    · rcases hx : T.cell c r v with _ | x
      · dsimp only
        rw [List.findSome?_eq_none_iff]
        intro d hd
        refine K.cell_out d r v (hR' d hd) fun hvd => h3 v hv v ?_ rfl
        exact List.mem_flatMap.2 ⟨d, hd, hvd⟩
      · rfl
    · rw [K.cell_out d r v (hR d (by simp)) fun hvd => h3 v hvd v
        (List.mem_flatMap.2 ⟨c, hc, hv⟩) rfl]
      exact ih hR' h2 hc

theorem cell_of_not_mem (K : TLaws I M Z T) {l : List S} (hR : ∀ c ∈ l, T.Reg c) {v : Var}
    (hv : v ∉ l.flatMap I.outputs) (r : RowId) : cell T l r v = none := by
  unfold cell
  rw [List.findSome?_eq_none_iff]
  intro c hc
  exact K.cell_out c r v (hR c hc) fun h => hv (List.mem_flatMap.2 ⟨c, hc, h⟩)

theorem cell_none_iff {l : List S} {r : RowId} {v : Var} :
    cell T l r v = none ↔ ∀ c ∈ l, T.cell c r v = none := by
  unfold cell
  rw [List.findSome?_eq_none_iff]

theorem cell_congr {xs : List (S × β × S)} {r r' : RowId} {v v' : Var}
    (h : ∀ x ∈ xs, T.cell x.2.2 r v = T.cell x.1 r' v') :
    cell T (xs.map (·.2.2)) r v = cell T (xs.map (·.1)) r' v' := by
  unfold cell
  induction xs with
  | nil => rfl
  | cons x xs ih =>
    simp only [List.map_cons, List.findSome?_cons, h x (by simp)]
    split
    · rfl
    · exact ih fun x hx => h x (by simp [hx])

end ProdTab

/-- The table held by a product. -/
def productTab {S : Type} (I : Iface S) (T : Tab S) : Tab (Product S) where
  Reg p := (∀ c ∈ p.cgpms, T.Reg c) ∧ Product.validate I p.cgpms = .ok () ∧ p.cgpms ≠ []
  cell p := ProdTab.cell T p.cgpms
  present _ _ := True

section
variable {S : Type} {I : Iface S}

theorem Product.validate_nodup {l : List S} (h : Product.validate I l = .ok ()) :
    (l.flatMap I.outputs).Nodup := by
  by_contra hn
  simp only [Product.validate, hn, not_false_iff, if_true] at h
  cases h

theorem only_nil_right (l : List Var) : only l [] = [] := rfl

theorem observeOne_eq (r o i) (s : S) (g : Rng) :
    observeOne I r o i (s, g) = if only (I.outputs s) o = [] then (.ok (), (s, g))
      else I.observe r (only (I.outputs s) o)
        (merged (only (I.inputs s) o) (only (I.inputs s) i)) (s, g) := by
  unfold observeOne
  rw [Py.get_bind]
  dsimp only
  rw [getIntersection_eq, getIntersection_eq, getIntersection_eq]
  by_cases h : only (I.outputs s) o = []
  · rw [if_neg (by simpa using h), if_pos h]; rfl
  · rw [if_pos h, if_neg h]

theorem mergedl_snoc {K V : Type} [DecidableEq K] (ds : List (Dict K V)) (e : Dict K V) :
    mergedl (ds ++ [e]) = Dict.update (mergedl ds) e := by
  simp [mergedl]

theorem nodup_mergedl {K V : Type} [DecidableEq K] (ds : List (Dict K V)) :
    (Dict.keys (mergedl ds)).Nodup := by
  induction ds using List.reverseRecOn with
  | nil => simp [mergedl]
  | append_singleton ds e ih => rw [mergedl_snoc]; exact nodup_update' _ _ ih

theorem mergedl_nil {K V : Type} [DecidableEq K] (ds : List (Dict K V)) (h : ∀ d ∈ ds, d = []) :
    mergedl ds = [] := by
  induction ds using List.reverseRecOn with
  | nil => rfl
  | append_singleton ds e ih =>
    rw [mergedl_snoc, ih fun d hd => h d (by simp [hd]), h e (by simp)]; rfl

theorem get?_mergedl {K V : Type} [DecidableEq K] (ds : List (Dict K V))
    (hn : ∀ d ∈ ds, (Dict.keys d).Nodup)
    (hd : ds.Pairwise fun d e => ∀ k, k ∈ Dict.keys d → k ∉ Dict.keys e) (k : K) :
    Dict.get? (mergedl ds) k = ds.findSome? fun d => Dict.get? d k := by
  induction ds using List.reverseRecOn with
  | nil => simp [mergedl]
  | append_singleton ds e ih =>
    rw [List.pairwise_append] at hd
    rw [mergedl_snoc, Dict.get?_update _ _ (hn e (by simp)),
      ih (fun d h => hn d (by simp [h])) hd.1, List.findSome?_append, List.findSome?_singleton]
    rcases he : Dict.get? e k with _ | x
    · simp
    · have : (ds.findSome? fun d => Dict.get? d k) = none := by
        rw [List.findSome?_eq_none_iff]
        intro d hdm
        rw [Dict.get?_eq_none_iff]
        intro hk
        exact hd.2.2 d hdm e (by simp) k hk (Dict.mem_keys_of_get? he)
      rw [this]; rfl

end

section
variable {S : Type} {I : Iface S} {M : Sem S} {Z : List Var} {T : Tab S}

theorem Product.observe_ok {p p' : Product S} {r o i g g'}
    (h : Product.observe I r o i (p, g) = (.ok (), (p', g'))) : ∃ xs : List (S × Unit × S),
      xs.map (·.1) = p.cgpms ∧ xs.map (·.2.2) = p'.cgpms ∧
      ∀ x ∈ xs, ∃ g1 g2, observeOne I r o i (x.1, g1) = (.ok (), (x.2.2, g2)) := by
  unfold Product.observe at h
  rw [Py.bind_apply] at h
  unfold Product.each Py.onAttr at h
  dsimp only at h
  rcases he : Py.each (observeOne I r o i) (p.cgpms, g) with ⟨_ | as, l1, g2⟩ <;> rw [he] at h
  · cases h
  · obtain ⟨xs, h1, -, h3, h4⟩ := Py.each_ok he
    cases h
    exact ⟨xs, h1, h3, fun x hx => h4 x hx⟩

/-- What one component of a product is like after observe. -/
theorem observeOne_table (L : Laws I M) (K : TLaws I M Z T) {s s' : S} {r o i g g'}
    (hs : T.Reg s) (hw : Whole Z o)
    (h : observeOne I r o i (s, g) = (.ok (), (s', g'))) :
    T.Reg s' ∧ attrs I M s' = attrs I M s ∧
    (∀ r' v, r' ≠ r → T.cell s' r' v = T.cell s r' v) ∧
    (∀ v x, T.cell s r v = some x → T.cell s' r v = some x) ∧
    (∀ v ∈ I.outputs s, ∀ x, T.cell s r v = none → Dict.get? o v = some x →
      T.cell s' r v = some x) ∧
    (∀ v, v ∉ Z → T.cell s r v = none → Dict.get? o v = none → T.cell s' r v = none) := by
  have ha := observeOne_attrs L r o i s g (K.inv s hs)
  rw [h] at ha
  rw [observeOne_eq] at h
  split at h
  · next he =>
    cases h
    refine ⟨hs, rfl, fun _ _ _ => rfl, fun _ _ h => h, fun v hv x _ hx => ?_, fun _ _ h _ => h⟩
    have := get?_only (I.outputs s) o v
    rw [he, if_pos hv, hx] at this
    cases this
  · obtain ⟨h1, h2, h3, h4, h5, h6, h7⟩ := K.observe _ _ _ _ _ _ _ hs (hw.only _) h
    refine ⟨h1, ha, h4, h5, fun v hv x hx hg => h6 v hv x hx ?_, fun v hv hx hg => h7 v hv hx ?_⟩
    · rw [get?_only, if_pos hv, hg]
    · rw [get?_only, hg]; simp

theorem unobserveOne_table (L : Laws I M) (K : TLaws I M Z T) {s : S} (r : RowId) (g : Rng)
    (hs : T.Reg s) : ∃ ob s', unobserveOne I r (s, g) = (.ok (ob, []), (s', g)) ∧ T.Reg s' ∧
      attrs I M s' = attrs I M s ∧ (Dict.keys ob).Nodup ∧
      (∀ v, Dict.get? ob v = T.cell s r v) ∧ (∀ v, T.cell s' r v = none) ∧
      (∀ r' v, r' ≠ r → T.cell s' r' v = T.cell s r' v) := by
  by_cases hp : T.present s r
  · obtain ⟨ob, s', h1, h2, h3, h4, h5, h6, h7⟩ := K.unobserve s r g hs hp
    refine ⟨ob, s', ?_, h2, ?_, h3, h4, h5, h6⟩
    · unfold unobserveOne Py.catchAll; rw [h1]
    · have := L.unobserve_attrs r s g (K.inv s hs)
      rwa [h1] at this
  · obtain ⟨e, he⟩ := K.unobserve_absent s r g hs hp
    have hc : ∀ v, T.cell s r v = none := fun v => by
      by_contra h
      exact hp (K.present_cell s r v hs h)
    refine ⟨[], s, ?_, hs, rfl, by simp [Dict.keys], fun v => (hc v).symm, hc, fun _ _ _ => rfl⟩
    unfold unobserveOne Py.catchAll; rw [he]

theorem Product.unobserve_ok (L : Laws I M) (K : TLaws I M Z T) {p : Product S}
    (hp : (productTab I T).Reg p) (r : RowId) (g : Rng) :
    ∃ xs : List (S × (Dict Var Val × Dict Var Val) × S), xs.map (·.1) = p.cgpms ∧
      Product.unobserve I r (p, g) = (.ok (mergedl (xs.map (·.2.1.1)), []),
        (⟨xs.map (·.2.2)⟩, g)) ∧
      ∀ x ∈ xs, unobserveOne I r (x.1, g) = (.ok x.2.1, (x.2.2, g)) ∧ T.Reg x.2.2 ∧
        attrs I M x.2.2 = attrs I M x.1 ∧ (Dict.keys x.2.1.1).Nodup ∧
        (∀ v, Dict.get? x.2.1.1 v = T.cell x.1 r v) ∧ (∀ v, T.cell x.2.2 r v = none) ∧
        (∀ r' v, r' ≠ r → T.cell x.2.2 r' v = T.cell x.1 r' v) := by
  obtain ⟨xs, h1, h2, h3⟩ := Py.each_total (m := unobserveOne I r) (l := p.cgpms) (g := g)
    (P := fun s a s' => unobserveOne I r (s, g) = (.ok a, (s', g)) ∧ a.2 = [] ∧ T.Reg s' ∧
        attrs I M s' = attrs I M s ∧ (Dict.keys a.1).Nodup ∧
        (∀ v, Dict.get? a.1 v = T.cell s r v) ∧ (∀ v, T.cell s' r v = none) ∧
        (∀ r' v, r' ≠ r → T.cell s' r' v = T.cell s r' v))
    (fun s hs => by
      obtain ⟨ob, s', h1, h2⟩ := unobserveOne_table L K r g (hp.1 s hs)
      exact ⟨(ob, []), s', h1, h1, rfl, h2⟩)
  refine ⟨xs, h2, ?_, fun x hx => ⟨(h3 x hx).1, (h3 x hx).2.2⟩⟩
  have hne : xs ≠ [] := by
    rintro rfl
    exact hp.2.2 h2.symm
  unfold Product.unobserve
  rw [Py.bind_apply]
  unfold Product.each Py.onAttr
  dsimp only
  rw [h1]
  dsimp only
  rw [if_neg (by simpa using hne), List.map_map, List.map_map,
    mergedl_nil (xs.map (Prod.snd ∘ fun x => x.2.1)) (by
      intro d hd
      obtain ⟨x, hx, rfl⟩ := List.mem_map.1 hd
      exact (h3 x hx).2.1)]
  rfl

theorem Product.reg_of {p : Product S} {l : List S}
    (hp : (productTab I T).Reg p) (hl : ∀ c ∈ l, T.Reg c)
    (ha : l.map (attrs I M) = p.cgpms.map (attrs I M)) : (productTab I T).Reg ⟨l⟩ := by
  refine ⟨hl, by rw [← hp.2.1]; exact attrs_validate ha, ?_⟩
  rintro rfl
  exact hp.2.2 (List.map_eq_nil_iff.1 ha.symm)

theorem Product.cell_of_forall (K : TLaws I M Z T) {l l' : List S} (h : List.Forall₂ M.E l l')
    (hR : ∀ c ∈ l, T.Reg c) : ProdTab.cell T l = ProdTab.cell T l' := by
  funext r v
  unfold ProdTab.cell
  induction h with
  | nil => rfl
  | cons h _ ih =>
    simp only [List.findSome?_cons, K.cell_E _ _ h (hR _ (by simp)),
      ih fun c hc => hR c (by simp [hc])]

theorem mergedl_cells (K : TLaws I M Z T) {xs : List (S × (Dict Var Val × Dict Var Val) × S)}
    {r : RowId} (hR : ∀ x ∈ xs, T.Reg x.1)
    (hn : ((xs.map (·.1)).flatMap I.outputs).Nodup)
    (h1 : ∀ x ∈ xs, (Dict.keys x.2.1.1).Nodup)
    (h2 : ∀ x ∈ xs, ∀ v, Dict.get? x.2.1.1 v = T.cell x.1 r v) (v : Var) :
    Dict.get? (mergedl (xs.map (·.2.1.1))) v = ProdTab.cell T (xs.map (·.1)) r v := by
  have hk : ∀ x ∈ xs, ∀ k ∈ Dict.keys x.2.1.1, k ∈ I.outputs x.1 := by
    intro x hx k hk
    by_contra hc
    rw [← not_not (a := k ∈ _), ← Dict.get?_eq_none_iff, h2 x hx] at hk
    exact hk (K.cell_out _ _ _ (hR x hx) hc)
  rw [get?_mergedl]
  · unfold ProdTab.cell
    rw [List.findSome?_map, List.findSome?_map]
    clear hn hk
    induction xs with
    | nil => rfl
    | cons x xs ih =>
      simp only [List.findSome?_cons, Function.comp, h2 x (by simp)]
      split
      · rfl
      · exact ih (fun x hx => hR x (by simp [hx])) (fun x hx => h1 x (by simp [hx]))
          (fun x hx => h2 x (by simp [hx]))
  · intro d hd
    obtain ⟨x, hx, rfl⟩ := List.mem_map.1 hd
    exact h1 x hx
  · rw [List.pairwise_map]
    rw [List.flatMap_map, List.nodup_flatMap] at hn
    refine (List.pairwise_iff_forall_sublist.2 fun {a b} hab => ?_)
    intro k ha hb
    have hma : a ∈ xs := hab.subset (by simp)
    have hmb : b ∈ xs := hab.subset (by simp)
    exact List.pairwise_iff_forall_sublist.1 hn.2 hab (hk a hma k ha) (hk b hmb k hb)

theorem productTLaws (L : Laws I M) (K : TLaws I M Z T) :
    TLaws (productI I) (productSem I M) Z (productTab I T) where
  inv p h := ⟨fun c hc => K.inv c (h.1 c hc), h.2.1⟩
  inputs p h := by
    change p.cgpms.flatMap I.inputs = []
    rw [List.flatMap_eq_nil_iff]
    exact fun c hc => K.inputs c (h.1 c hc)
  nodup p h := Product.validate_nodup h.2.1
  reg_E p q h hp := by
    refine Product.reg_of hp ?_ (attrs_forall L h.1).symm
    intro c hc
    obtain ⟨i, hi, rfl⟩ := List.getElem_of_mem hc
    have hi' : i < p.cgpms.length := h.1.length_eq ▸ hi
    exact K.reg_E _ _ (h.1.get hi' hi) (hp.1 _ (List.getElem_mem hi'))
  cell_E p q h hp := Product.cell_of_forall K h.1 hp.1
  present_E _ _ _ _ _ := Iff.rfl
  cell_out p r v h hv := ProdTab.cell_of_not_mem K h.1 hv r
  present_cell _ _ _ _ _ := trivial
  whole p r v x h hv hx := by
    obtain ⟨c, hc, hx⟩ := List.exists_of_findSome?_eq_some hx
    exact K.whole c r v x (h.1 c hc) hv hx
  observe p r o i g p' g' h hw ho := by
    obtain ⟨xs, h1, h2, h3⟩ := Product.observe_ok ho
    have hR : ∀ x ∈ xs, T.Reg x.1 := fun x hx => h.1 _ (h1 ▸ List.mem_map.2 ⟨x, hx, rfl⟩)
    have ht := fun x hx => observeOne_table L K (hR x hx) hw (h3 x hx).choose_spec.choose_spec
    have hn : ((xs.map (·.1)).flatMap I.outputs).Nodup := h1 ▸ Product.validate_nodup h.2.1
    have ha : (xs.map (·.2.2)).map (attrs I M) = p.cgpms.map (attrs I M) := by
      rw [← h1, List.map_map, List.map_map]
      exact List.map_congr_left fun x hx => (ht x hx).2.1
    have hreg : (productTab I T).Reg p' := by
      obtain ⟨l'⟩ := p'
      change _ = l' at h2
      subst h2
      refine Product.reg_of h (fun c hc => ?_) ha
      obtain ⟨x, hx, rfl⟩ := List.mem_map.1 hc
      exact (ht x hx).1
    have hn' : ((xs.map (·.2.2)).flatMap I.outputs).Nodup := h2 ▸ Product.validate_nodup hreg.2.1
    have hout : ∀ x ∈ xs, I.outputs x.2.2 = I.outputs x.1 := fun x hx =>
      congrArg Prod.fst (ht x hx).2.1
    have e1 : ∀ x ∈ xs, ∀ v ∈ I.outputs x.1, ∀ r, ProdTab.cell T p.cgpms r v = T.cell x.1 r v :=
      fun x hx v hv r => ProdTab.cell_of_mem K h.1 (Product.validate_nodup h.2.1)
        (h1 ▸ List.mem_map.2 ⟨x, hx, rfl⟩) hv r
    have e2 : ∀ x ∈ xs, ∀ v ∈ I.outputs x.1, ∀ r, ProdTab.cell T p'.cgpms r v = T.cell x.2.2 r v :=
      fun x hx v hv r => ProdTab.cell_of_mem K hreg.1 (Product.validate_nodup hreg.2.1)
        (h2 ▸ List.mem_map.2 ⟨x, hx, rfl⟩) (hout x hx ▸ hv) r
    have e3 : ∀ v, (∃ x ∈ xs, v ∈ I.outputs x.1) ∨ v ∉ p.cgpms.flatMap I.outputs := fun v => by
      by_cases hv : v ∈ p.cgpms.flatMap I.outputs
      · left
        rw [← h1, List.flatMap_map, List.mem_flatMap] at hv
        exact hv
      · exact Or.inr hv
    have e4 : ∀ v, v ∉ p.cgpms.flatMap I.outputs → ∀ r, ProdTab.cell T p'.cgpms r v = none :=
      fun v hv r => ProdTab.cell_of_not_mem K hreg.1 (by
        rwa [(attrs_flatMap (M := M) (l := p'.cgpms) (l' := p.cgpms) (h2 ▸ ha)).1]) r
    refine ⟨hreg, trivial, fun _ _ => Iff.rfl, ?_, ?_, ?_, ?_⟩
    · intro r' v hr'
      change ProdTab.cell T p'.cgpms r' v = ProdTab.cell T p.cgpms r' v
      rw [← h1, ← h2]
      exact ProdTab.cell_congr fun x hx => (ht x hx).2.2.1 r' v hr'
    · intro v x hx
      change ProdTab.cell T p'.cgpms r v = _
      change ProdTab.cell T p.cgpms r v = _ at hx
      rcases e3 v with ⟨y, hy, hv⟩ | hv
      · rw [e2 y hy v hv]
        rw [e1 y hy v hv] at hx
        exact (ht y hy).2.2.2.1 v x hx
      · rw [ProdTab.cell_of_not_mem K h.1 hv] at hx; cases hx
    · intro v hv x hx hg
      change ProdTab.cell T p'.cgpms r v = _
      change ProdTab.cell T p.cgpms r v = _ at hx
      rcases e3 v with ⟨y, hy, hv⟩ | hv'
      · rw [e2 y hy v hv]
        rw [e1 y hy v hv] at hx
        exact (ht y hy).2.2.2.2.1 v hv x hx hg
      · exact absurd hv hv'
    · intro v hz hx hg
      change ProdTab.cell T p'.cgpms r v = _
      change ProdTab.cell T p.cgpms r v = _ at hx
      rcases e3 v with ⟨y, hy, hv⟩ | hv'
      · rw [e2 y hy v hv]
        rw [e1 y hy v hv] at hx
        exact (ht y hy).2.2.2.2.2 v hz hx hg
      · exact e4 v hv' r
  unobserve p r g h _ := by
    obtain ⟨xs, h1, h2, h3⟩ := Product.unobserve_ok L K h r g
    have hR : ∀ x ∈ xs, T.Reg x.1 := fun x hx => h.1 _ (h1 ▸ List.mem_map.2 ⟨x, hx, rfl⟩)
    refine ⟨_, _, h2, Product.reg_of (M := M) h (fun c hc => ?_) ?_, nodup_mergedl _, ?_, ?_, ?_,
      fun _ _ => Iff.rfl⟩
    · obtain ⟨x, hx, rfl⟩ := List.mem_map.1 hc
      exact (h3 x hx).2.1
    · rw [← h1, List.map_map, List.map_map]
      exact List.map_congr_left fun x hx => (h3 x hx).2.2.1
    · intro v
      change _ = ProdTab.cell T p.cgpms r v
      rw [← h1]
      exact mergedl_cells K hR (h1 ▸ Product.validate_nodup h.2.1) (fun x hx => (h3 x hx).2.2.2.1)
        (fun x hx => (h3 x hx).2.2.2.2.1) v
    · intro v
      refine ProdTab.cell_none_iff.2 fun c hc => ?_
      obtain ⟨x, hx, rfl⟩ := List.mem_map.1 hc
      exact (h3 x hx).2.2.2.2.2.1 v
    · intro r' v hr'
      change ProdTab.cell T _ r' v = ProdTab.cell T p.cgpms r' v
      rw [← h1]
      exact ProdTab.cell_congr fun x hx => (h3 x hx).2.2.2.2.2.2 r' v hr'
  unobserve_absent _ _ _ _ h := absurd trivial h
  unobserve_fresh p r g h hf := by
    obtain ⟨xs, h1, h2, h3⟩ := Product.unobserve_ok L K h r g
    change (productSem I M).E p (Product.unobserve I r (p, g)).2.1
    rw [h2]
    refine ⟨?_, h.2.1⟩
    rw [← h1, List.forall₂_map_left_iff, List.forall₂_map_right_iff, List.forall₂_same]
    intro x hx
    have hm : x.1 ∈ p.cgpms := h1 ▸ List.mem_map.2 ⟨x, hx, rfl⟩
    have := K.unobserve_fresh x.1 r g (h.1 _ hm) fun v => ProdTab.cell_none_iff.1 (hf v) _ hm
    rw [← unobserveOne_snd, (h3 x hx).1] at this
    exact this
  inverse p r o i g p' g' g'' h hf hw ho := by
    obtain ⟨xs, h1, h2, h3⟩ := Product.observe_ok ho
    have hR : ∀ x ∈ xs, T.Reg x.1 := fun x hx => h.1 _ (h1 ▸ List.mem_map.2 ⟨x, hx, rfl⟩)
    have ht := fun x hx => observeOne_table L K (hR x hx) hw (h3 x hx).choose_spec.choose_spec
    have ha : (xs.map (·.2.2)).map (attrs I M) = p.cgpms.map (attrs I M) := by
      rw [← h1, List.map_map, List.map_map]
      exact List.map_congr_left fun x hx => (ht x hx).2.1
    have hreg : (productTab I T).Reg p' := by
      obtain ⟨l'⟩ := p'
      change _ = l' at h2
      subst h2
      refine Product.reg_of h (fun c hc => ?_) ha
      obtain ⟨x, hx, rfl⟩ := List.mem_map.1 hc
      exact (ht x hx).1
    obtain ⟨ys, k1, k2, k3⟩ := Product.unobserve_ok L K hreg r g''
    change (productSem I M).E p (Product.unobserve I r (p', g'')).2.1
    rw [k2]
    refine ⟨?_, h.2.1⟩
    have hc : ∀ x ∈ xs, M.E x.1 (unobserveOne I r (x.2.2, g'')).2.1 := by
      intro x hx
      have hm : x.1 ∈ p.cgpms := h1 ▸ List.mem_map.2 ⟨x, hx, rfl⟩
      have hfr : T.Fresh x.1 r := fun v => ProdTab.cell_none_iff.1 (hf v) _ hm
      obtain ⟨g1, g2, h4⟩ := h3 x hx
      rw [unobserveOne_snd]
      rw [observeOne_eq] at h4
      split at h4
      · have h5 : x.1 = x.2.2 := (Prod.ext_iff.1 (Prod.ext_iff.1 h4).2).1
        rw [← h5]
        exact K.unobserve_fresh x.1 r g'' (hR x hx) hfr
      · exact K.inverse _ _ _ _ _ _ _ _ (hR x hx) hfr (hw.only _) h4
    have hy : ys.map (·.2.2) = xs.map fun x => (unobserveOne I r (x.2.2, g'')).2.1 := by
      have : ys.map (·.2.2) = (ys.map (·.1)).map fun s => (unobserveOne I r (s, g'')).2.1 := by
        rw [List.map_map]
        exact List.map_congr_left fun y hy => by
          change y.2.2 = (unobserveOne I r (y.1, g'')).2.1
          rw [(k3 y hy).1]
      rw [this, k1, ← h2, List.map_map]
      rfl
    rw [← h1, hy, List.forall₂_map_left_iff, List.forall₂_map_right_iff, List.forall₂_same]
    exact hc
  chain p r o i g p' g' x y h hf hw hd hz ho hy hx := by
    obtain ⟨xs, h1, h2, h3⟩ := Product.observe_ok ho
    by_cases ho' : o = []
    · subst ho'
      rw [if_pos rfl] at hx
      cases hx
      rw [add_zero, ← hy]
      have : p' = p := by
        obtain ⟨l⟩ := p
        obtain ⟨l'⟩ := p'
        change _ = l at h1
        change _ = l' at h2
        rw [← h1, ← h2]
        congr 1
        refine List.map_congr_left fun x hx => ?_
        obtain ⟨g1, g2, h4⟩ := h3 x hx
        rw [observeOne_eq, if_pos (by rfl)] at h4
        exact (Prod.ext_iff.1 (Prod.ext_iff.1 h4).2).1.symm
      rw [this]
    rw [if_neg ho'] at hx
    have hR : ∀ x ∈ xs, T.Reg x.1 := fun x hx => h.1 _ (h1 ▸ List.mem_map.2 ⟨x, hx, rfl⟩)
    rw [Product.logpdf_eq I fun r t c i s g => (L.logpdf_noDraw r t c i s g g).2.2, ← h1] at hx
    change Product.logpdfScore I p = _ at hy
    change Product.logpdfScore I p' = _
    unfold Product.logpdfScore at hy ⊢
    rw [map_eq_mapM] at hy ⊢
    rw [← h1] at hy
    rw [← h2]
    refine sum_chain I.logpdfScore (blockLogpdf I r o [] [] g) xs (fun t ht a b ha hb => ?_) hy hx
    have hm : t.1 ∈ p.cgpms := h1 ▸ List.mem_map.2 ⟨t, ht, rfl⟩
    have hfr : T.Fresh t.1 r := fun v => ProdTab.cell_none_iff.1 (hf v) _ hm
    obtain ⟨g1, g2, h4⟩ := h3 t ht
    rw [observeOne_eq] at h4
    unfold blockLogpdf at hb
    split at h4
    · next he =>
      rw [if_pos he] at hb
      cases hb
      have h5 : t.1 = t.2.2 := (Prod.ext_iff.1 (Prod.ext_iff.1 h4).2).1
      rw [← h5, ha, add_zero]
    · next he =>
      rw [if_neg he] at hb
      refine K.chain _ _ _ _ _ _ _ _ _ (hR t ht) hfr (hw.only _) (nodup_only _ _ hd) (fun v hv hvo => ?_) h4 ha ?_
      · rw [get?_only, if_pos hvo]
        exact hz v hv (List.mem_flatMap.2 ⟨t.1, hm, hvo⟩)
      · rw [if_neg he, ← hb, only_nil_right, only_nil_right]
        exact (L.logpdf_noDraw _ _ _ _ _ _ _).1

end

end Cgpm2
