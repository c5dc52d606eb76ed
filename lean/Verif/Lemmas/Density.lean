import Verif.Lemmas.FlProb
import Verif.Lemmas.FreeRows
import Verif.Lemmas.CrpSupport

/-!
# The density a model defines on its outputs (helpers)

`lp` is `logpdf` with 0 for an empty query.  `Dens` says that on the queries made of values
satisfying `OK` it is a log-density obeying the rule for conditionals; `Full` says that it is
never `-inf`.
-/

namespace Cgpm2
open Spec

variable {S : Type}

/-- `logpdf` as a number: 0 for an empty query, `nan` for an exception. -/
noncomputable def lp (I : Iface S) (r : RowId) (s : S) (t c : Dict Var Val) : Fl :=
  if t = [] then 0
  else match (I.logpdf r t c [] (s, fun _ => ⟨0, 0⟩)).1 with
    | .ok x => x
    | .error _ => .nan

structure IsQuery (outs : List Var) (OK : Var → Val → Prop) (t c : Dict Var Val) : Prop where
  nodup : (Dict.keys t ++ Dict.keys c).Nodup
  out : ∀ kv ∈ t ++ c, kv.1 ∈ outs
  ok : ∀ kv ∈ t ++ c, OK kv.1 kv.2

structure Dens (I : Iface S) (r : RowId) (s : S) (OK : Var → Val → Prop) : Prop where
  isLogP : ∀ t c, IsQuery (I.outputs s) OK t c → (lp I r s t c).IsLogP
  ratio : ∀ t c, IsQuery (I.outputs s) OK t c → lp I r s (t ++ c) [] = lp I r s t c + lp I r s c []

structure Full (I : Iface S) (r : RowId) (s : S) (OK : Var → Val → Prop) : Prop
    extends Dens I r s OK where
  fin : ∀ t c, IsQuery (I.outputs s) OK t c → ∃ x : ℝ, lp I r s t c = .fin x

theorem lp_nil (I : Iface S) (r s c) : lp I r s [] c = 0 := if_pos rfl

theorem lp_ok {I : Iface S} (hd : ∀ r t c i, Py.NoDraw (I.logpdf r t c i)) {r : RowId} {s : S}
    {t c : Dict Var Val} (h : (lp I r s t c).IsLogP) (ht : t ≠ []) (g : Rng) :
    (I.logpdf r t c [] (s, g)).1 = .ok (lp I r s t c) := by
  rw [(hd r t c [] s g (fun _ => ⟨0, 0⟩)).1]
  unfold lp at h ⊢
  rw [if_neg ht] at h ⊢
  rcases hx : (I.logpdf r t c [] (s, fun _ => ⟨0, 0⟩)).1 with e | x <;> rw [hx] at h
  exact False.elim h

theorem lp_E {I : Iface S} {M : Sem S} (L : Laws I M) {s s' : S} (h : M.E s s') (r t c) :
    lp I r s t c = lp I r s' t c := by
  unfold lp
  rw [(L.logpdf r t c [] s s' _ h).1]

theorem lp_of_ok {I : Iface S} {r : RowId} {s : S} {t c : Dict Var Val} (ht : t ≠ []) {x : Fl}
    (h : (I.logpdf r t c [] (s, fun _ => ⟨0, 0⟩)).1 = .ok x) : lp I r s t c = x := by
  unfold lp
  rw [if_neg ht, h]

theorem Dens.of_E {I : Iface S} {M : Sem S} (L : Laws I M) {s s' : S} (h : M.E s s') {r OK}
    (hd : Dens I r s OK) : Dens I r s' OK where
  isLogP t c hq := by
    rw [← lp_E L h]
    exact hd.isLogP t c (by rwa [L.outputs_E h])
  ratio t c hq := by
    simp only [← lp_E L h]
    exact hd.ratio t c (by rwa [L.outputs_E h])

theorem Full.of_E {I : Iface S} {M : Sem S} (L : Laws I M) {s s' : S} (h : M.E s s') {r OK}
    (hd : Full I r s OK) : Full I r s' OK where
  toDens := hd.toDens.of_E L h
  fin t c hq := by
    rw [← lp_E L h]
    exact hd.fin t c (by rwa [L.outputs_E h])

namespace IsQuery
variable {outs : List Var} {OK : Var → Val → Prop} {t c : Dict Var Val}

theorem mono (h : IsQuery outs OK t c) {outs' : List Var} {OK' : Var → Val → Prop}
    (ho : ∀ kv ∈ t ++ c, kv.1 ∈ outs') (hk : ∀ kv ∈ t ++ c, OK' kv.1 kv.2) :
    IsQuery outs' OK' t c := ⟨h.nodup, ho, hk⟩

theorem right (h : IsQuery outs OK t c) : IsQuery outs OK c [] where
  nodup := by simpa using h.nodup.sublist (List.sublist_append_right ..)
  out kv hk := h.out kv (by simp at hk; simp [hk])
  ok kv hk := h.ok kv (by simp at hk; simp [hk])

theorem joint (h : IsQuery outs OK t c) : IsQuery outs OK (t ++ c) [] where
  nodup := by simpa [Dict.keys] using h.nodup
  out kv hk := h.out kv (by simpa using hk)
  ok kv hk := h.ok kv (by simpa using hk)

theorem only (h : IsQuery outs OK t c) (l : List Var) :
    IsQuery l OK (Spec.only l t) (Spec.only l c) where
  nodup := h.nodup.sublist ((List.filter_sublist.map _).append (List.filter_sublist.map _))
  out kv hk := by
    rw [List.mem_append] at hk
    rcases hk with hk | hk <;> simpa using (List.mem_filter.1 hk).2
  ok kv hk := h.ok kv (by
    rw [List.mem_append] at hk ⊢
    rcases hk with hk | hk
    · exact .inl (List.mem_filter.1 hk).1
    · exact .inr (List.mem_filter.1 hk).1)

end IsQuery

theorem only_append (l : List Var) (t c : Dict Var Val) :
    only l (t ++ c : Dict Var Val) = only l t ++ only l c := List.filter_append ..

/-! ## Primitives -/

/-- A dict over one variable. -/
theorem single_cases {v : Var} {t : Dict Var Val} (hn : (Dict.keys t).Nodup)
    (ho : ∀ kv ∈ t, kv.1 ∈ [v]) : t = [] ∨ ∃ x, t = [(v, x)] := by
  match t with
  | [] => exact .inl rfl
  | [(k, x)] =>
    have := ho (k, x) (by simp)
    simp only [List.mem_singleton] at this
    exact .inr ⟨x, by rw [this]⟩
  | (k, x) :: (k', y) :: t =>
    have h1 := ho (k, x) (by simp)
    have h2 := ho (k', y) (by simp)
    simp only [List.mem_singleton] at h1 h2
    simp [Dict.keys, h1, h2] at hn

theorem query_single {v : Var} {OK : Var → Val → Prop} {t c : Dict Var Val}
    (h : IsQuery [v] OK t c) : t = [] ∨ ∃ x, t = [(v, x)] ∧ c = [] ∧ OK v x := by
  rcases single_cases (h.nodup.sublist (List.sublist_append_left ..))
    (fun kv hk => h.out kv (by simp [hk])) with rfl | ⟨x, rfl⟩
  · exact .inl rfl
  · refine .inr ⟨x, rfl, ?_, h.ok (v, x) (by simp)⟩
    rcases single_cases (h.right.nodup.sublist (List.sublist_append_left ..))
      (fun kv hk => h.out kv (by simp [hk])) with rfl | ⟨y, rfl⟩
    · rfl
    · have := h.nodup
      simp [Dict.keys] at this

theorem dens_single {I : Iface S} {r : RowId} {s : S} {OK : Var → Val → Prop} {v : Var}
    (hv : I.outputs s = [v]) (h : ∀ x, OK v x → (lp I r s [(v, x)] []).IsLogP) :
    Dens I r s OK where
  isLogP t c hq := by
    rw [hv] at hq
    rcases query_single hq with rfl | ⟨x, rfl, rfl, hx⟩
    · rw [lp_nil]; exact Fl.isLogP_zero
    · exact h x hx
  ratio t c hq := by
    rw [hv] at hq
    rcases query_single hq with rfl | ⟨x, rfl, rfl, hx⟩
    · rw [lp_nil, zero_add]; rfl
    · rw [lp_nil, add_zero]; rfl

/-- Every value a primitive can be asked about: a CRP cannot be asked about a missing value. -/
theorem Prim.dens {p : Prim} (h : p.Good) {r : RowId} (hr : Dict.get? p.data r = none)
    {OK : Var → Val → Prop} (hok : ∀ v ∈ p.outputs, ∀ x, OK v x → p.kind = .crp → x ≠ .nan) :
    Dens primI r p OK := by
  obtain ⟨v, hv⟩ := h.1.out
  have hr' : r ∉ Dict.keys p.data := (Dict.get?_eq_none_iff _ _).1 hr
  refine dens_single hv fun x hx => ?_
  cases x with
  | num q =>
    rw [lp_of_ok (by simp) (show (primI.logpdf r [(v, .num q)] [] [] (p, _)).1 = _ from
      Prim.logpdf_num h.1 h.2 hv hr' q)]
    by_cases hl : p.Legal (.num q)
    · obtain ⟨y, hy, -⟩ := Prim.pred_legal h.1 h.2 hr' hl
      rw [hy]; trivial
    · rw [Prim.pred_illegal hl]; trivial
  | nan =>
    have hk := hok v (by simp [hv]) .nan hx
    have : p.logpdf r [(v, .nan)] [] [] = .ok (.fin 0) ∨
        p.logpdf r [(v, .nan)] [] [] = .ok .ninf := by
      cases p with
      | crp c => exact absurd rfl (hk rfl)
      | categorical c => exact .inl (Categorical.logpdf_nan hv hr')
      | bernoulli c => exact .inr (Bernoulli.logpdf_nan hv hr')
      | normal c => exact .inl (Normal.logpdf_nan hv hr')
      | normalUC c => exact .inl (NormalUC.logpdf_nan hv hr')
      | poisson c => exact .inr (Poisson.logpdf_nan hv hr')
    rcases this with h1 | h1 <;>
      rw [lp_of_ok (by simp) (show (primI.logpdf r [(v, .nan)] [] [] (p, _)).1 = _ from h1)] <;>
      trivial

/-- Values with positive density: accepted numbers, and missing values where they count as 0. -/
theorem Prim.full {p : Prim} (h : p.Good) {r : RowId} (hr : Dict.get? p.data r = none)
    {OK : Var → Val → Prop} (hok : ∀ v ∈ p.outputs, ∀ x, OK v x → Accepts p x ∧
      (x = .nan → p.kind ≠ .bernoulli ∧ p.kind ≠ .poisson)) : Full primI r p OK := by
  have hd : Dens primI r p OK := Prim.dens h hr fun v hv x hx hk => by
    rintro rfl
    have := (hok v hv _ hx).1
    cases p <;> simp [Prim.kind] at hk
    exact this
  refine ⟨hd, fun t c hq => ?_⟩
  obtain ⟨v, hv⟩ := h.1.out
  have hr' : r ∉ Dict.keys p.data := (Dict.get?_eq_none_iff _ _).1 hr
  have hv' : primI.outputs p = [v] := hv
  rw [hv'] at hq
  rcases query_single hq with rfl | ⟨x, rfl, rfl, hx⟩
  · exact ⟨0, lp_nil ..⟩
  · obtain ⟨h1, h2⟩ := hok v (by simp [hv]) x hx
    cases x with
    | num q =>
      obtain ⟨y, hy, -⟩ := Prim.pred_legal h.1 h.2 hr' ((Prim.legal_iff h.1 _).2 h1)
      exact ⟨y, lp_of_ok (by simp) (show (primI.logpdf r [(v, .num q)] [] [] (p, _)).1 = _ by
        rw [← hy]; exact Prim.logpdf_num h.1 h.2 hv hr' q)⟩
    | nan =>
      have h2 := h2 rfl
      refine ⟨0, lp_of_ok (by simp) (show p.logpdf r [(v, .nan)] [] [] = _ from ?_)⟩
      cases p with
      | crp c => exact h1.elim
      | categorical c => exact Categorical.logpdf_nan hv hr'
      | bernoulli c => exact absurd rfl h2.1
      | normal c => exact Normal.logpdf_nan hv hr'
      | normalUC c => exact NormalUC.logpdf_nan hv hr'
      | poisson c => exact absurd rfl h2.2

/-! ## Products -/

section
variable {I : Iface S} {M : Sem S}

theorem block_lp (L : Laws I M) {b : S} {r : RowId}
    {OK : Var → Val → Prop} (hd : Dens I r b OK) {outs : List Var} {t c : Dict Var Val}
    (hq : IsQuery outs OK t c) (g : Rng) :
    blockLogpdf I r t c [] g b =
      .ok (lp I r b (only (I.outputs b) t) (only (I.outputs b) c)) := by
  unfold blockLogpdf
  split
  · next h => rw [h, lp_nil]; rfl
  · next h =>
    rw [show only (I.inputs b) ([] : Dict Var Val) = [] from rfl]
    exact lp_ok L.logpdf_noDraw (hd.isLogP _ _ (hq.only _)) h g

theorem product_lp (L : Laws I M) {p : Product S} {r : RowId} {OK : Var → Val → Prop}
    (hd : ∀ b ∈ p.cgpms, Dens I r b OK) {outs : List Var} {t c : Dict Var Val}
    (hq : IsQuery outs OK t c) :
    lp (productI I) r p t c =
      (p.cgpms.map fun b => lp I r b (only (I.outputs b) t) (only (I.outputs b) c)).sum := by
  by_cases ht : t = []
  · subst ht
    rw [lp_nil]
    symm
    apply List.sum_eq_zero
    intro x hx
    obtain ⟨b, -, rfl⟩ := List.mem_map.1 hx
    exact lp_nil ..
  · refine lp_of_ok ht ?_
    rw [Product.logpdf_eq I (fun r t c i s g => (L.logpdf_noDraw r t c i s g g).2.2)]
    rw [mapM_ok p.cgpms _ (fun b => lp I r b (only (I.outputs b) t) (only (I.outputs b) c))
      (fun b hb => block_lp L (hd b hb) hq _)]
    change Except.ok (Fl.sum _) = _
    rw [Fl.sum_eq]

theorem product_dens (L : Laws I M) {p : Product S} {r : RowId} {OK : Var → Val → Prop}
    (hd : ∀ b ∈ p.cgpms, Dens I r b OK) : Dens (productI I) r p OK where
  isLogP t c hq := by
    rw [product_lp L hd hq]
    apply Fl.isLogP_sum
    intro x hx
    obtain ⟨b, hb, rfl⟩ := List.mem_map.1 hx
    exact (hd b hb).isLogP _ _ (hq.only _)
  ratio t c hq := by
    rw [product_lp L hd hq, product_lp L hd hq.right, product_lp L hd hq.joint,
      ← List.sum_map_add]
    congr 1
    apply List.map_congr_left
    intro b hb
    rw [only_append]
    exact (hd b hb).ratio _ _ (hq.only _)

theorem product_full (L : Laws I M) {p : Product S} {r : RowId} {OK : Var → Val → Prop}
    (hd : ∀ b ∈ p.cgpms, Full I r b OK) : Full (productI I) r p OK where
  toDens := product_dens L fun b hb => (hd b hb).toDens
  fin t c hq := by
    rw [product_lp L (fun b hb => (hd b hb).toDens) hq, ← Fl.sum_eq]
    refine (Fl.sum_fin_iff _).2 fun x hx => ?_
    obtain ⟨b, hb, rfl⟩ := List.mem_map.1 hx
    exact (hd b hb).fin _ _ (hq.only _)

end

end Cgpm2
