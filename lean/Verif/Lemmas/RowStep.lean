import Verif.Lemmas.RowTotal
import Verif.Lemmas.Counts
import Verif.Lemmas.Gibbs
import Verif.Lemmas.TowerDensity

/-!
# Gibbs steps on the rows of a view succeed (helpers)
-/

namespace Cgpm2.Views
open Spec Cpp

/-- The value has a positive density under the column of the view. -/
def Suits (v : View) (o : Var) (x : Val) : Prop :=
  ∃ m p, Flat v m p ∧ ∃ b ∈ p.cgpms, Prim.outputs b = [o] ∧ Prim.kind b ≠ .crp ∧ Prim.Legal b x ∧
    (x = .nan → Prim.kind b ≠ .bernoulli ∧ Prim.kind b ≠ .poisson)

theorem Suits.shape {Z : List Var} {v v' : View} {o : Var} {x : Val} (h : Suits v o x)
    (hr : (cgpmTab Z 2).Reg v') (hs : (cgpmSem 2).shape v' = (cgpmSem 2).shape v) : Suits v' o x := by
  obtain ⟨m, p, hf, b, hb, h1, h2, h3, h4⟩ := h
  obtain ⟨m', p', hf'⟩ := flat_of_reg hr (isView_of_shape hs hr hf.view)
  refine ⟨m', p', hf', ?_⟩
  rw [hf.eq, hf'.eq] at hs
  have hs : Shape.mix m'.rowDivide.shape ((cgpmSem 1).shape m'.array.base) =
    Shape.mix m.rowDivide.shape ((cgpmSem 1).shape m.array.base) := hs
  injection hs with _ hs
  rw [hf.base, hf'.base] at hs
  obtain ⟨b', hb', he⟩ := shape_prims hs.symm (q := b) (List.mem_flatMap.2 ⟨b, hb, List.mem_singleton.2 rfl⟩)
  unfold Prim.shape at he
  injection he with e1 e2 e3
  refine ⟨b', hb', e1.trans h1, e2 ▸ h2, (legal_of_kind e2 e3 (e2 ▸ h2)).2 h3, fun hx => e2 ▸ h4 hx⟩

/-- The components of a view are products of copies of its columns. -/
theorem comp_product {Z : List Var} {v : View} {m : FlexMix (Cgpm 1)} {p : Product (Cgpm 0)} (hf : Flat v m p)
    (h : (cgpmTab Z 2).Reg v) (z : Val) : ∃ q : Product (Cgpm 0),
      m.array.comp (cgpmSem 1) z = (.product q : Node (Cgpm 0)) ∧
      (cgpmSem 1).shape (.product q : Node (Cgpm 0)) = (cgpmSem 1).shape (.product p : Node (Cgpm 0)) := by
  rw [hf.eq] at h
  have hreg : MixReg _ _ _ _ _ _ _ m := h
  have hcr := (hreg.comp z (m.array.comp (cgpmSem 1) z) rfl).1
  have hcopy := (hreg.inv.2.1.2.1 z).2.2
  rw [hf.base] at hcopy
  revert hcopy hcr
  generalize m.array.comp (cgpmSem 1) z = c
  intro hcr hcopy
  rcases c with c | c | c | c | c | c
  · cases hcopy
  · exact ⟨c, rfl, hcopy⟩
  · exact hcr.elim
  · exact hcr.elim
  · cases hcopy
  · cases hcopy

theorem comps_product {Z : List Var} {v : View} {m : FlexMix (Cgpm 1)} {p : Product (Cgpm 0)} (hf : Flat v m p)
    (h : (cgpmTab Z 2).Reg v) {c : Cgpm 1} (hc : c ∈ m.array.base :: Dict.values m.array.cgpms) :
    (cgpmTab Z 1).Reg c ∧ ∃ q : Product (Cgpm 0), c = (.product q : Node (Cgpm 0)) ∧
      (cgpmSem 1).shape (.product q : Node (Cgpm 0)) = (cgpmSem 1).shape (.product p : Node (Cgpm 0)) := by
  rcases List.mem_cons.1 hc with rfl | hc
  · rw [hf.eq] at h
    exact ⟨(flexMix_base (cgpmLaws 1) (cgpmTLaws Z 1) h).1, p, hf.base, rfl⟩
  · obtain ⟨⟨z, c'⟩, hm, rfl⟩ := List.mem_map.1 hc
    have h0 := h
    rw [hf.eq] at h
    have hreg : MixReg _ _ _ _ _ _ _ m := h
    have hg : Dict.get? m.array.cgpms z = some c' := Dict.get?_of_mem hreg.inv.2.1.2.2.1 hm
    obtain ⟨q, h1, h2⟩ := comp_product hf h0 z
    have hr := (hreg.comp z (m.array.comp (cgpmSem 1) z) rfl).1
    unfold FlexArray.comp at h1 hr
    rw [hg] at h1 hr
    exact ⟨hr, q, h1, h2⟩

theorem plausible_column {Z : List Var} {v : View} (h : (cgpmTab Z 2).Reg v) {o : Var} {x : Val}
    (hs : Suits v o x) (hz : o ∉ Z) : Plausible 2 v o x := by
  obtain ⟨m, p, hf, b, hb, h1, h2, h3, h4⟩ := hs
  have h0 := h
  rw [hf.eq] at h ⊢
  have hreg : MixReg _ _ _ _ _ _ _ m := h
  refine ⟨fun ho => ?_, fun c hc => ?_⟩
  · rw [hf.out, List.mem_singleton] at ho
    exact absurd (ho ▸ hreg.x_mem) hz
  · obtain ⟨hr, q, rfl, hq⟩ := comps_product hf h0 hc
    intro a ha ho
    obtain ⟨b', hb', he⟩ := shape_prims hq (q := a) (List.mem_flatMap.2 ⟨a, ha, List.mem_singleton.2 rfl⟩)
    unfold Prim.shape at he
    injection he with e1 e2 e3
    have hb'o : Prim.outputs b' = [o] := by
      obtain ⟨y, hy⟩ := hf.single b' hb'
      have hy : Prim.outputs b' = [y] := hy
      have ho : o ∈ Prim.outputs a := ho
      rw [← e1, hy, List.mem_singleton] at ho
      rw [hy, ho]
    have : b' = b := eq_of_output hf.nodup hb' hb hb'o h1
    subst this
    have hl := (legal_of_kind e2 e3 h2).1 h3
    exact ⟨(Prim.legal_iff (show (a : Prim).Inv from (hr.1 a ha).1.1) x).1 hl, fun hx => e2 ▸ h4 hx⟩

theorem plausible_cluster {Z : List Var} {v : View} {m : FlexMix (Cgpm 1)} {p : Product (Cgpm 0)} (hf : Flat v m p)
    (h : (cgpmTab Z 2).Reg v) {x : Val} (hx : IsCluster m.rowDivide x) : Plausible 2 v m.indexer x := by
  have h0 := h
  rw [hf.eq] at h ⊢
  have hreg : MixReg _ _ _ _ _ _ _ m := h
  refine ⟨fun _ => hx, fun c hc => ?_⟩
  obtain ⟨hr, q, rfl, hq⟩ := comps_product hf h0 hc
  intro a ha ho
  refine absurd ?_ hreg.x_out
  obtain ⟨b', hb', he⟩ := shape_prims hq (q := a) (List.mem_flatMap.2 ⟨a, ha, List.mem_singleton.2 rfl⟩)
  unfold Prim.shape at he
  injection he with e1 e2 e3
  change m.indexer ∈ (cgpmI 1).outputs m.array.base
  rw [hf.base]
  exact List.mem_flatMap.2 ⟨b', hb', by change m.indexer ∈ Prim.outputs b'; rw [e1]; exact ho⟩

/-- What is known of a view when a row has been taken out. -/
structure Out (Z : List Var) (v : View) (r : RowId) (ob : Dict Var Val) (v1 : View) (z : Var) (supp : List Int) :
    Prop where
  reg : (cgpmTab Z 2).Reg v1
  view : IsView v1
  shape : (cgpmSem 2).shape v1 = (cgpmSem 2).shape v
  unobserve : ∀ g, (cgpmI 2).unobserve r (v, g) = (.ok (ob, []), (v1, g))
  nodup : (Dict.keys ob).Nodup
  held : ∀ a, Dict.get? ob a = (cgpmTab Z 2).cell v r a
  gone : (cgpmTab Z 2).Fresh v1 r
  others : ∀ r', r' ≠ r → ∀ a, (cgpmTab Z 2).cell v1 r' a = (cgpmTab Z 2).cell v r' a
  zs : ∃ m p, Flat v1 m p ∧ m.indexer = z ∧ m.rowDivide.support = .ok supp
  steps : ∀ g, transitionRows (cgpmI 1) r (v, g) = finishStep (cgpmI 2) r ob [] z supp
    (Py.mapL (fun k : Int => (cgpmI 2).logpdf none (Dict.set ob z (.num (k : ℚ))) [] []) supp (v1, g))
  back : ∀ k ∈ supp, ∀ g, ∃ v', (cgpmI 2).observe r (Dict.set ob z (.num (k : ℚ))) [] (v1, g) =
    (.ok (), (v', g))

theorem out_of {Z : List Var} {v : View} (h : (cgpmTab Z 2).Reg v) (hv : IsView v)
    (hp : ∀ o ∈ viewColumns v, o ∉ Z) {r : RowId} (hr : (cgpmTab Z 2).present v r) :
    ∃ ob v1 z supp, Out Z v r ob v1 z supp := by
  have K := cgpmTLaws Z 2
  have L := cgpmLaws 2
  obtain ⟨ob, v1, e1, e2, e3, e4, e5, e6, e7⟩ := K.unobserve v r (fun _ => ⟨0, 0⟩) h hr
  have hu : ∀ g, (cgpmI 2).unobserve r (v, g) = (.ok (ob, []), (v1, g)) := fun g => by
    have h1 := L.unobserve_noDraw r v g (fun _ => ⟨0, 0⟩)
    rw [e1] at h1
    exact Prod.ext h1.1 (Prod.ext h1.2.1 h1.2.2)
  have hs : (cgpmSem 2).shape v1 = (cgpmSem 2).shape v := by
    have := L.shape_unobserve (K.inv _ h) r (fun _ => ⟨0, 0⟩)
    rwa [e1] at this
  have hv1 := isView_of_shape hs e2 hv
  obtain ⟨m, p, hf⟩ := flat_of_reg e2 hv1
  have hd1 : Node.rowDivide v1 = some m.rowDivide := by rw [hf.eq]; rfl
  obtain ⟨hG, hD, ⟨z', supp, hz2, hs2, -, -, -⟩, -⟩ := reg_rowDivide (n := 1) e2 hd1
  obtain rfl : m.indexer = z' := by rw [hf.out] at hz2; simpa using hz2
  obtain ⟨m0, p0, hf0⟩ := flat_of_reg h hv
  refine ⟨ob, v1, m.indexer, supp, e2, hv1, hs, hu, e3, e4, e5, fun r' hr' a => e6 r' a hr', ⟨m, p, hf, rfl, hs2⟩,
    fun g => transitionRows_steps (I := cgpmI 1) (d := m0.rowDivide) (by rw [hf0.eq]; rfl) (hu g) hd1 hf.out hs2,
    fun k hk g => ?_⟩
  obtain ⟨ob', v1', d1, d, a1, -, a3, hkd, -, -, -, -, ho⟩ := take_out h hv hp hr g
  rw [hu g] at a1
  cases a1
  rw [hd1] at a3
  cases a3
  have hl : m.rowDivide.Legal (.num (k : ℚ)) := by
    revert hs2 hkd
    generalize m.rowDivide = d
    intro hs2 hkd
    cases d with
    | crp c =>
      cases hs2
      exact ⟨_, rfl, by rw [truncate_intCast]; exact hk⟩
    | _ => cases hkd
  have := ho _ hl
  rwa [hf.out, List.headD_cons] at this

theorem Out.outputs {Z : List Var} {v v1 : View} {r : RowId} {ob : Dict Var Val} {z : Var} {supp : List Int}
    (o : Out Z v r ob v1 z supp) (h : (cgpmTab Z 2).Reg v) : (cgpmI 2).outputs v1 = (cgpmI 2).outputs v := by
  have := congrArg (fun x => x.1) ((cgpmLaws 2).unobserve_attrs r v (fun _ => ⟨0, 0⟩) ((cgpmTLaws Z 2).inv _ h))
  rw [o.unobserve] at this
  exact this

/-- The entries of a row together with a cluster. -/
theorem Out.entry {Z : List Var} {v v1 : View} {r : RowId} {ob : Dict Var Val} {z : Var} {supp : List Int}
    (o : Out Z v r ob v1 z supp) (h : (cgpmTab Z 2).Reg v) {k : Int} {kv : Var × Val}
    (hkv : kv ∈ Dict.set ob z (.num (k : ℚ))) :
    kv = (z, .num (k : ℚ)) ∨ (kv.1 ∈ viewColumns v ∧ (cgpmTab Z 2).cell v r kv.1 = some kv.2) := by
  obtain ⟨a, x⟩ := kv
  have hg := Dict.get?_of_mem (Dict.nodup_keys_set _ z (.num (k : ℚ)) o.nodup) hkv
  rw [Dict.get?_set] at hg
  by_cases ha : z = a
  · rw [if_pos ha] at hg
    cases hg
    exact .inl (by rw [ha])
  · rw [if_neg ha, o.held] at hg
    refine .inr ⟨?_, hg⟩
    have hout : a ∈ (cgpmI 2).outputs v := by
      by_contra hn
      rw [(cgpmTLaws Z 2).cell_out v r a h hn] at hg
      cases hg
    obtain ⟨m, p, hf, rfl, -⟩ := o.zs
    rw [← o.outputs h] at hout
    unfold viewColumns
    rw [← o.outputs h]
    rw [hf.outputs] at hout ⊢
    rcases List.mem_cons.1 hout with rfl | hout
    · exact absurd rfl ha
    · exact hout

theorem Out.query {Z : List Var} {v v1 : View} {r : RowId} {ob : Dict Var Val} {z : Var} {supp : List Int}
    (o : Out Z v r ob v1 z supp) (h : (cgpmTab Z 2).Reg v) {k : Int} {OK : Var → Val → Prop}
    (h1 : OK z (.num (k : ℚ))) (h2 : ∀ a ∈ viewColumns v, ∀ x, (cgpmTab Z 2).cell v r a = some x → OK a x) :
    IsQuery ((cgpmI 2).outputs v1) OK (Dict.set ob z (.num (k : ℚ))) [] := by
  refine ⟨?_, fun kv hkv => ?_, fun kv hkv => ?_⟩
  · simpa [Dict.keys] using Dict.nodup_keys_set ob z (.num (k : ℚ)) o.nodup
  · rw [List.append_nil] at hkv
    rcases o.entry h hkv with rfl | ⟨h1, -⟩
    · obtain ⟨m, p, hf, rfl, -⟩ := o.zs
      rw [hf.outputs]
      simp
    · rw [o.outputs h]
      exact List.mem_of_mem_tail h1
  · rw [List.append_nil] at hkv
    rcases o.entry h hkv with rfl | ⟨h3, h4⟩
    · exact h1
    · exact h2 _ h3 _ h4

theorem supp_ne {d : Prim} (hk : d.kind = .crp) {supp : List Int} (hs : d.support = .ok supp) : supp ≠ [] := by
  obtain ⟨supp', k, h1, h2, -⟩ := crp_last hk
  rw [hs] at h1
  cases h1
  rintro rfl
  cases h2

theorem set_ne (ob : Dict Var Val) (z : Var) (x : Val) : Dict.set ob z x ≠ [] := fun h0 => by
  have : Dict.get? (Dict.set ob z x) z = some x := by rw [Dict.get?_set, if_pos rfl]
  rw [h0] at this
  cases this

/-- A Gibbs step on a row of a view succeeds. -/
theorem row_step {Z : List Var} {v : View} (h : (cgpmTab Z 2).Reg v) (hv : IsView v)
    (hp : ∀ o ∈ viewColumns v, o ∉ Z) {r : RowId} (hr : (cgpmTab Z 2).present v r)
    (hn : ¬ (cgpmTab Z 2).present v none)
    (hs : ∀ o ∈ viewColumns v, ∀ x, (cgpmTab Z 2).cell v r o = some x → Suits v o x) (g : Rng) :
    ∃ v' g', transitionRows (cgpmI 1) r (v, g) = (.ok (), (v', g')) ∧ Within 1 g g' := by
  have K := cgpmTLaws Z 2
  have L := cgpmLaws 2
  obtain ⟨ob, v1, z, supp, o⟩ := out_of h hv hp hr
  obtain ⟨m, p, hf, hz, hsupp⟩ := o.zs
  have hfn : (cgpmTab Z 2).Fresh v1 none := fun a => by
    rw [o.others none (fun e => hn (e ▸ hr))]
    by_contra hc
    exact hn (K.present_cell _ _ _ h hc)
  have hfin : ∀ k ∈ supp, ∃ x : ℝ, lp (cgpmI 2) none v1 (Dict.set ob z (.num (k : ℚ))) [] = .fin x :=
    fun k hk => ((cgpmDLaws Z 2).full v1 none o.reg hfn).fin _ _ (o.query h
      (by rw [← hz]; exact plausible_cluster hf o.reg ⟨supp, k, hsupp, hk, rfl⟩)
      (fun a ha x hx => plausible_column o.reg ((hs a ha x hx).shape o.reg o.shape) (hp a ha)))
  have hW : ∀ k ∈ supp, (lp (cgpmI 2) none v1 (Dict.set ob z (.num (k : ℚ))) []).IsLogP := fun k hk => by
    obtain ⟨x, hx⟩ := hfin k hk
    rw [hx]
    trivial
  obtain ⟨v2, hl, hE⟩ := mapL_logpdf L (r := none) (t := fun k : Int => Dict.set ob z (.num (k : ℚ)))
    (x := fun k => lp (cgpmI 2) none v1 (Dict.set ob z (.num (k : ℚ))) []) supp v1 g
    (K.inv _ o.reg) fun k hk => lp_ok L.logpdf_noDraw (hW k hk) (set_ne _ _ _) g
  obtain ⟨i, g3, hi, hlt, -⟩ := logPflipIdx_ok (supp.map fun k : Int =>
      lp (cgpmI 2) none v1 (Dict.set ob z (.num (k : ℚ))) [])
    (by intro h0; rw [List.map_eq_nil_iff] at h0; exact supp_ne hf.kind hsupp h0)
    (by intro x hx; obtain ⟨k, hk, rfl⟩ := List.mem_map.1 hx; exact hW k hk)
    (by
      refine List.sum_pos _ (fun x hx => ?_) (by simpa using supp_ne hf.kind hsupp)
      rw [List.map_map] at hx
      obtain ⟨k, hk, rfl⟩ := List.mem_map.1 hx
      obtain ⟨y, hy⟩ := hfin k hk
      rw [Function.comp, hy]
      exact Real.exp_pos _) g
  rw [List.length_map] at hlt
  have hmem : supp.getD i 0 ∈ supp := by
    rw [List.getD_eq_getElem?_getD, List.getElem?_eq_getElem hlt]; exact List.getElem_mem hlt
  obtain ⟨v3, h3⟩ := o.back _ hmem g3
  have hg3 := logPflip_within (supp.map fun k : Int =>
    lp (cgpmI 2) none v1 (Dict.set ob z (.num (k : ℚ))) []) g
  rw [hi] at hg3
  obtain ⟨h4, -, h6⟩ := L.observe r (Dict.set ob z (.num (supp.getD i 0 : Int))) [] v1 v2 g3 hE
  rw [h3] at h4 h6
  rcases h5 : (cgpmI 2).observe r (Dict.set ob z (.num (supp.getD i 0 : Int))) [] (v2, g3) with ⟨e, v', g'⟩
  rw [h5] at h4 h6
  have h4 : Except.ok () = e := h4
  subst h4
  have h6 : g3 = g' := h6
  subst h6
  refine ⟨v', g3, (o.steps g).trans ?_, hg3⟩
  rw [hl]
  unfold finishStep
  dsimp only
  rw [hi]
  exact h5

/-! ## The loop over the rows of a view -/

/-- The values of the view have positive densities, and the row id None is not used. -/
structure Steady (Z : List Var) (v : View) : Prop where
  suits : ∀ o ∈ viewColumns v, ∀ r x, (cgpmTab Z 2).cell v r o = some x → Suits v o x
  anon : ¬ (cgpmTab Z 2).present v none

theorem Steady.kin {Z : List Var} {v v' : View} (h : Steady Z v) (hp : ∀ o ∈ viewColumns v, o ∉ Z)
    (hk : ViewKin Z v v') : Steady Z v' where
  suits o ho r x hx := by
    have ho : o ∈ viewColumns v := by unfold viewColumns at ho ⊢; rwa [hk.outs] at ho
    rw [hk.cell r o (hp o ho)] at hx
    exact (h.suits o ho r x hx).shape hk.reg hk.shape
  anon := fun hn => h.anon ((hk.rows none).1 hn)

theorem viewColumns_kin {Z : List Var} {v v' : View} (hk : ViewKin Z v v') : viewColumns v' = viewColumns v := by
  unfold viewColumns; rw [hk.outs]

theorem rows_total {Z : List Var} {l : List RowId} {v : View} (h : (cgpmTab Z 2).Reg v) (hv : IsView v)
    (hp : ∀ o ∈ viewColumns v, o ∉ Z) (hs : Steady Z v) (hl : ∀ r ∈ l, (cgpmTab Z 2).present v r) (g : Rng) :
    ∃ as v' g', Py.mapL (fun r => (transitionRows (cgpmI 1) r : Py (Node (Cgpm 1) × Rng) Unit)) l (v, g) =
      (.ok as, (v', g')) ∧ Within l.length g g' := by
  induction l generalizing v g with
  | nil => exact ⟨[], v, g, rfl, .refl _ g⟩
  | cons r l ih =>
    obtain ⟨v1, g1, h1, h1'⟩ := row_step h hv hp (hl r (by simp)) hs.anon (fun o ho x hx => hs.suits o ho r x hx) g
    have hk := transitionRows_kin h hv h1
    obtain ⟨as, v2, g2, h2, h2'⟩ := ih hk.reg (isView_of_shape hk.shape hk.reg hv)
      (by rw [viewColumns_kin hk]; exact hp) (hs.kin hp hk)
      (fun r' hr' => (hk.rows r').2 (hl r' (by simp [hr']))) g1
    refine ⟨() :: as, v2, g2, ?_, (h1'.trans h2').mono (by rw [List.length_cons]; omega)⟩
    unfold Py.mapL
    exact (bind_run (s := (v, g)) h1).trans ((bind_run (s := (v1, g1)) h2).trans rfl)

/-- The loop over the rows of a view succeeds. -/
theorem viewRows_total {Z : List Var} {v : View} (h : (cgpmTab Z 2).Reg v) (hv : IsView v)
    (hp : ∀ o ∈ viewColumns v, o ∉ Z) (hs : Steady Z v) (rowids : List RowId) (g : Rng) :
    ∃ v' g', Gibbs.transitionViewRows rowids (v, g) = (.ok (), (v', g')) ∧ ∀ rows : List RowId,
      (∀ r, (cgpmTab Z 2).present v r → r ∈ rows) → Within (2 * rows.length) g g' := by
  obtain ⟨m, p, hf⟩ := flat_of_reg h hv
  have hd : Node.rowDivide v = some m.rowDivide := by rw [hf.eq]; rfl
  have hpres : ∀ r ∈ Dict.keys m.rowDivide.data, (cgpmTab Z 2).present v r := fun r hr => by
    obtain ⟨-, -, -, hdata⟩ := reg_rowDivide (n := 1) h hd
    obtain ⟨x, hx⟩ := Dict.exists_get?_of_mem_keys hr
    rw [hdata r _ hf.out] at hx
    exact (cgpmTLaws Z 2).present_cell _ _ _ h (by rw [hx]; nofun)
  have e1 : Gibbs.rowidsTransition rowids (v, g) = (.ok (if rowids = [] then Dict.keys m.rowDivide.data else
      (Dict.keys m.rowDivide.data).filter fun r => decide (r ∈ rowids)), (v, g)) := by
    rw [hf.eq]
    rfl
  have hsub : (if rowids = [] then Dict.keys m.rowDivide.data else
      (Dict.keys m.rowDivide.data).filter fun r => decide (r ∈ rowids)).Sublist (Dict.keys m.rowDivide.data) := by
    split
    · exact .refl _
    · exact List.filter_sublist
  obtain ⟨l', g1, h1, h2⟩ := permutation_ok (if rowids = [] then Dict.keys m.rowDivide.data else
      (Dict.keys m.rowDivide.data).filter fun r => decide (r ∈ rowids)) g
  have h2' := permutation_within (if rowids = [] then Dict.keys m.rowDivide.data else
      (Dict.keys m.rowDivide.data).filter fun r => decide (r ∈ rowids)) g
  rw [h1] at h2'
  obtain ⟨as, v', g', h3, h3'⟩ := rows_total h hv hp hs (l := l')
    (fun r hr => hpres r (hsub.subset (h2.mem_iff.1 hr))) g1
  refine ⟨v', g', ?_, fun rows hrows => ?_⟩
  swap
  · have hle : (Dict.keys m.rowDivide.data).length ≤ rows.length :=
      (List.subperm_of_subset ((reg_rowDivide (n := 1) h hd).1.1.nodup) fun r hr => hrows r (hpres r hr)).length_le
    have hle' := hsub.length_le
    rw [← h2.length_eq] at h2' hle'
    exact (h2'.trans h3').mono (by omega)
  unfold Gibbs.transitionViewRows
  refine (bind_run (s := (v, g)) e1).trans ?_
  have e2 : Py.onSnd (permutation (if rowids = [] then Dict.keys m.rowDivide.data else
      (Dict.keys m.rowDivide.data).filter fun r => decide (r ∈ rowids))) (v, g) = (.ok l', (v, g1)) := by
    unfold Py.onSnd
    rw [h1]
  exact (bind_run (s := (v, g)) e2).trans ((bind_run (s := (v, g1)) h3).trans rfl)

/-! ## The kernel -/

/-- A GibbsCrossCat on which the steps succeed. -/
structure Smooth (Z : List Var) (x : Crosscat) : Prop extends CC Z x where
  steady : ∀ v ∈ x.cgpms, Steady Z v

theorem CC.view_plain {Z : List Var} {x : Crosscat} (h : CC Z x) {v : View} (hv : v ∈ x.cgpms) :
    ∀ o ∈ viewColumns v, o ∉ Z := fun o ho => h.plain o (mem_columns.2 ⟨v, hv, ho⟩)

theorem Smooth.set {Z : List Var} {x : Crosscat} (h : Smooth Z x) {i : Nat} {v v' : View}
    (hi : x.cgpms[i]? = some v) (hk : ViewKin Z v v') :
    Smooth Z ⟨x.cgpms.set i v'⟩ ∧ columns ⟨x.cgpms.set i v'⟩ = columns x := by
  have hm := List.mem_of_getElem? hi
  obtain ⟨h1, h2, h3, h4⟩ := kin_replace h.toCC (kin_set (fun v hv => h.viewReg hv) hi hk)
  refine ⟨⟨h1, fun u hu => ?_⟩, h2.columns.symm⟩
  rcases List.mem_or_eq_of_mem_set hu with hu | rfl
  · exact h.steady u hu
  · exact (h.steady v hm).kin (h.view_plain hm) hk

theorem indexes_total {Z : List Var} {x : Crosscat} (h : CC Z x) (ord : Orders) {outputs : Option (List Var)}
    (ho : ∀ o ∈ outputs.getD [], o ∈ columns x) : ∃ l, rowMixtureIndexes ord x outputs = .ok l ∧
      (∀ i ∈ l, i < x.cgpms.length) ∧ l.length ≤ x.cgpms.length := by
  have hall : ∀ o ∈ orAll x outputs, o ∈ columns x := by
    intro o h1
    unfold orAll at h1
    split at h1
    · exact h1
    · exact h1
    · exact ho o h1
  have hA : ∀ o, ∃ k, o ∈ orAll x outputs → viewIndex x [o] = .ok k ∧ k < x.cgpms.length := fun o => by
    by_cases h1 : o ∈ orAll x outputs
    · obtain ⟨k, h2, v, h3, -⟩ := viewIndex_eq h (hall o h1)
      exact ⟨k, fun _ => ⟨h2, (List.getElem?_eq_some_iff.1 h3).1⟩⟩
    · exact ⟨0, fun h2 => absurd h2 h1⟩
  choose A hA using hA
  have hlt : ∀ i ∈ ord.views ((orAll x outputs).map A), i < x.cgpms.length := fun i hi => by
    rw [ord.views_mem] at hi
    obtain ⟨o, ho, rfl⟩ := List.mem_map.1 hi
    exact (hA o ho).2
  refine ⟨ord.views ((orAll x outputs).map A), ?_, hlt, ?_⟩
  · unfold rowMixtureIndexes
    rw [mapM_ok _ _ A (fun o ho => (hA o ho).1)]
    rfl
  · have := (List.subperm_of_subset (ord.views_nodup ((orAll x outputs).map A))
      (l₂ := List.range x.cgpms.length) fun i hi => List.mem_range.2 (hlt i hi)).length_le
    rwa [List.length_range] at this

/-- The loop over views. -/
theorem forViews_total {Z : List Var} {m : Py (View × Rng) Unit}
    (hm : ∀ v g, (cgpmTab Z 2).Reg v → IsView v → (∀ o ∈ viewColumns v, o ∉ Z) → Steady Z v →
      ∃ v' g', m (v, g) = (.ok (), (v', g')) ∧ ViewKin Z v v' ∧ ∀ rows : List RowId,
        (∀ r, (cgpmTab Z 2).present v r → r ∈ rows) → Within (2 * rows.length) g g') {l : List Nat} {s : Gibbs} (g : Rng)
    (h : Smooth Z s.crosscat) (hl : ∀ i ∈ l, i < s.crosscat.cgpms.length) :
    ∃ x' g', Gibbs.forEach l (fun i => Gibbs.onCrosscat (onView i m)) (s, g) =
      (.ok (), ({ s with crosscat := x' }, g')) ∧ Smooth Z x' ∧
      x'.cgpms.map (cgpmI 2).outputs = s.crosscat.cgpms.map (cgpmI 2).outputs ∧ ∀ rows : List RowId,
        (∀ v ∈ s.crosscat.cgpms, ∀ r, (cgpmTab Z 2).present v r → r ∈ rows) → Within (l.length * (2 * rows.length)) g g' := by
  suffices ∃ as x' g', Py.mapL (fun i => Gibbs.onCrosscat (onView i m)) l (s, g) =
      (.ok as, ({ s with crosscat := x' }, g')) ∧ Smooth Z x' ∧
      x'.cgpms.map (cgpmI 2).outputs = s.crosscat.cgpms.map (cgpmI 2).outputs ∧ ∀ rows : List RowId,
        (∀ v ∈ s.crosscat.cgpms, ∀ r, (cgpmTab Z 2).present v r → r ∈ rows) → Within (l.length * (2 * rows.length)) g g' by
    obtain ⟨as, x', g', h1, h2⟩ := this
    exact ⟨x', g', (bind_run (s := (s, g)) h1).trans rfl, h2⟩
  induction l generalizing s g with
  | nil => exact ⟨[], s.crosscat, g, rfl, h, rfl, fun _ _ => .refl _ g⟩
  | cons i l ih =>
    have hi := hl i (by simp)
    have hmem := List.getElem_mem hi
    obtain ⟨v', g1, h1, h2, h2'⟩ := hm s.crosscat.cgpms[i] g (h.viewReg hmem) (h.views _ hmem) (h.view_plain hmem)
      (h.steady _ hmem)
    obtain ⟨h3, -⟩ := h.set (List.getElem?_eq_getElem hi) h2
    have h4 : (s.crosscat.cgpms.set i v').map (cgpmI 2).outputs = s.crosscat.cgpms.map (cgpmI 2).outputs := by
      rw [List.map_set, h2.outs]
      refine List.ext_getElem? fun j => ?_
      rw [List.getElem?_set]
      split
      · next h0 => subst h0; simp [hi]
      · rfl
    have e1 : Gibbs.onCrosscat (onView i m) (s, g) =
        (.ok (), ({ s with crosscat := ⟨s.crosscat.cgpms.set i v'⟩ }, g1)) := by
      unfold Gibbs.onCrosscat onView
      dsimp only
      rw [List.getElem?_eq_getElem hi]
      dsimp only
      rw [h1]
    obtain ⟨as, x', g', h5, h6, h7, h8⟩ := ih (s := { s with crosscat := ⟨s.crosscat.cgpms.set i v'⟩ }) g1 h3
      (fun j hj => by simpa using hl j (by simp [hj]))
    refine ⟨() :: as, x', g', ?_, h6, h7.trans h4, fun rows hr => ?_⟩
    swap
    · refine ((h2' rows (hr _ hmem)).trans (h8 rows fun u hu r hp => ?_)).mono (by
        rw [List.length_cons, Nat.add_mul]; omega)
      have hu : u ∈ s.crosscat.cgpms.set i v' := hu
      rcases List.mem_or_eq_of_mem_set hu with hu | rfl
      · exact hr u hu r hp
      · exact hr _ hmem r ((h2.rows r).1 hp)
    unfold Py.mapL
    exact (bind_run (s := (s, g)) e1).trans ((bind_run h5).trans rfl)

/-- The kernel that moves rows between clusters succeeds. -/
theorem rowAssignments_total {Z : List Var} (ord : Orders) {outputs : Option (List Var)}
    (rowids : Option (List RowId)) {s : Gibbs} (g : Rng) (h : Smooth Z s.crosscat)
    (ho : ∀ o ∈ outputs.getD [], o ∈ columns s.crosscat) :
    ∃ x' g', Gibbs.transitionRowAssignments ord outputs rowids (s, g) =
      (.ok (), ({ s with crosscat := x' }, g')) ∧ Smooth Z x' ∧
      x'.cgpms.map (cgpmI 2).outputs = s.crosscat.cgpms.map (cgpmI 2).outputs ∧ ∀ rows : List RowId,
        (∀ v ∈ s.crosscat.cgpms, ∀ r, (cgpmTab Z 2).present v r → r ∈ rows) →
        Within (s.crosscat.cgpms.length * (2 * rows.length)) g g' := by
  obtain ⟨l, h1, h2, hl⟩ := indexes_total h.toCC ord ho
  obtain ⟨x', g', h3, h4, h5, h6⟩ := forViews_total (m := Gibbs.transitionViewRows (rowids.getD [])) (fun v g a b c d => by
    obtain ⟨v', g', e, e'⟩ := viewRows_total a b c d (rowids.getD []) g
    exact ⟨v', g', e, viewRows_kin a b e, e'⟩) g h h2
  refine ⟨x', g', ?_, h4, h5, fun rows hr => (h6 rows hr).mono (Nat.mul_le_mul_right _ hl)⟩
  unfold Gibbs.transitionRowAssignments
  rw [Py.get_bind]
  dsimp only
  rw [Py.lift_bind, h1]
  exact h3

/-! ## A missing value in a Bernoulli or Poisson column -/

theorem askable_column {Z : List Var} {v : View} {m : FlexMix (Cgpm 1)} {p : Product (Cgpm 0)} (hf : Flat v m p)
    (h : (cgpmTab Z 2).Reg v) {o : Var} (hz : o ∉ Z) (x : Val) : flexOK 1 (CompOK 1) m o x := by
  intro c hc
  obtain ⟨hr, q, rfl, hq⟩ := comps_product hf h hc
  refine .inl ⟨fun _ _ => trivial, fun a ha ho hk => ?_⟩
  exact absurd ((hr.1 a ha).2.2.1 hk o ho) hz

theorem logpdf_missing {Z : List Var} {c : Prim} (h : (primTab Z).Reg c) {r : RowId}
    (hf : (primTab Z).Fresh c r) {o : Var} (ho : c.outputs = [o])
    (hk : c.kind = .bernoulli ∨ c.kind = .poisson) : lp (cgpmI 0) r c [(o, .nan)] [] = .ninf := by
  have hr' : r ∉ Dict.keys c.data := (Dict.get?_eq_none_iff _ _).1 (primTab_fresh h hf)
  have : c.logpdf r [(o, .nan)] [] [] = .ok .ninf := by
    cases c with
    | bernoulli c => exact Bernoulli.logpdf_nan ho hr'
    | poisson c => exact Poisson.logpdf_nan ho hr'
    | _ => rcases hk with hk | hk <;> cases hk
  exact lp_of_ok (by simp) (show (primI.logpdf r [(o, .nan)] [] [] (c, _)).1 = _ from this)

theorem weight_missing {Z : List Var} {v : View} (h : (cgpmTab Z 2).Reg v)
    (hp : ∀ o ∈ viewColumns v, o ∉ Z) {r : RowId} {ob : Dict Var Val} {v1 : View} {z : Var} {supp : List Int}
    (oo : Out Z v r ob v1 z supp) (hfn : (cgpmTab Z 2).Fresh v1 none) {o : Var} (ho : o ∈ viewColumns v)
    (hx : (cgpmTab Z 2).cell v r o = some .nan)
    (hk : ∃ m p, Flat v m p ∧ ∃ b ∈ p.cgpms, Prim.outputs b = [o] ∧
      (Prim.kind b = .bernoulli ∨ Prim.kind b = .poisson)) {k : Int} (hks : k ∈ supp) :
    lp (cgpmI 2) none v1 (Dict.set ob z (.num (k : ℚ))) [] = .ninf := by
  obtain ⟨m, p, hf, rfl, hsupp⟩ := oo.zs
  have hreg := oo.reg
  have hfn' := hfn
  rw [hf.eq] at hreg hfn'
  obtain ⟨supp', w, C, hA⟩ := flexMixAt (OKc := CompOK 1) hreg hfn' fun c h1 h2 => (cgpmDLaws Z 1).comp h1 h2
  have := hA.support
  rw [hsupp] at this
  cases this
  have hq : IsQuery ((cgpmI 2).outputs v1) (mixOK m.indexer supp (flexOK 1 (CompOK 1) m))
      (Dict.set ob m.indexer (.num (k : ℚ))) [] := oo.query h ⟨fun _ => ⟨k, hks, rfl⟩, fun hn => absurd rfl hn⟩
    (fun a ha x _ => ⟨fun e => by
      have hmr : MixReg _ _ _ _ _ _ _ m := hreg
      exact absurd (e ▸ hmr.x_mem) (hp a ha), fun _ => askable_column hf oo.reg (hp a ha) x⟩)
  obtain ⟨h1, h2⟩ := hA.lp_joint (toM := FlexMix.toMetadata (cgpmI 1)) (fromM := FlexMix.fromMetadata (cgpmI 1))
    (cgpmLaws 1) (flexArrayLaws (cgpmLaws 1)) (flexArrLaws (cgpmLaws 1)) hq
  have e1 : lp (cgpmI 2) none v1 (Dict.set ob m.indexer (.num (k : ℚ))) [] =
      lp (rowMixI (flexArrayI (cgpmI 1)) (FlexMix.toMetadata (cgpmI 1)) (FlexMix.fromMetadata (cgpmI 1))) none m
        (Dict.set ob m.indexer (.num (k : ℚ))) [] := by
    rw [hf.eq]
    rfl
  rw [e1]
  refine (Fl.exp_eq_zero_iff h1).1 (h2.trans ?_)
  unfold mixJ
  rw [Dict.get?_set, if_pos rfl]
  dsimp only
  rw [clusterOf_int]
  unfold mixJz compLp
  have hC : m.array.comp (cgpmSem 1) (.num (k : ℚ)) = C k := Option.some.inj (hA.get k hks)
  have hmr : MixReg _ _ _ _ _ _ _ m := hreg
  have hcr := (hmr.comp (.num (k : ℚ)) (C k) (hA.get k hks)).1
  have hcf : (cgpmTab Z 1).Fresh (C k) none := hmr.fresh none _ _ (hA.get k hks) (by rw [hA.held]; nofun)
  obtain ⟨q, hq1, hq2⟩ := comp_product hf oo.reg (.num (k : ℚ))
  rw [hC] at hq1
  rw [hq1] at hcr hcf ⊢
  have hcols : ∀ a ∈ q.cgpms, ∀ y ∈ (cgpmI 0).outputs a,
      y ∈ (flexArrayI (cgpmI 1)).outputs m.array ∧ y ∉ Z := by
    intro a ha y hy
    obtain ⟨b', hb', he⟩ := shape_prims hq2 (q := a) (List.mem_flatMap.2 ⟨a, ha, List.mem_singleton.2 rfl⟩)
    unfold Prim.shape at he
    injection he with e1 e2 e3
    have hy : y ∈ Prim.outputs a := hy
    rw [← e1] at hy
    have hy1 : y ∈ p.cgpms.flatMap (cgpmI 0).outputs := List.mem_flatMap.2 ⟨b', hb', hy⟩
    refine ⟨?_, hp y ?_⟩
    · change y ∈ (cgpmI 1).outputs m.array.base
      rw [hf.base]
      exact hy1
    · unfold viewColumns
      rw [← oo.outputs h, hf.outputs]
      exact hy1
  obtain ⟨m0, p0, hf0, b, hb, hb1, hb2⟩ := hk
  obtain ⟨b1, hb3, hb4⟩ : ∃ b1 ∈ p.cgpms, Prim.shape b1 = Prim.shape b := by
    have hs := oo.shape
    rw [hf.eq, hf0.eq] at hs
    have hs : Shape.mix m.rowDivide.shape ((cgpmSem 1).shape m.array.base) =
      Shape.mix m0.rowDivide.shape ((cgpmSem 1).shape m0.array.base) := hs
    injection hs with _ hs
    rw [hf.base, hf0.base] at hs
    exact shape_prims hs.symm (q := b) (List.mem_flatMap.2 ⟨b, hb, List.mem_singleton.2 rfl⟩)
  obtain ⟨a, ha, hab⟩ := shape_prims hq2.symm (q := b1) (List.mem_flatMap.2 ⟨b1, hb3, List.mem_singleton.2 rfl⟩)
  have hab := hab.trans hb4
  unfold Prim.shape at hab
  injection hab with c1 c2 c3
  have hqc := hq.only ((flexArrayI (cgpmI 1)).outputs m.array)
  have hqr : ∀ b ∈ q.cgpms, (lp (cgpmI 0) none b (only ((cgpmI 0).outputs b)
      (only ((flexArrayI (cgpmI 1)).outputs m.array) (Dict.set ob m.indexer (.num (k : ℚ))))) 
      (only ((cgpmI 0).outputs b) [])).IsLogP := by
    intro b hb
    refine ((cgpmDLaws Z 0).dens b none (hcr.1 b hb) (fun y => ProdTab.cell_none_iff.1 (hcf y) b hb)
      trivial).isLogP _ _ ((hqc.only ((cgpmI 0).outputs b)).mono (hqc.only ((cgpmI 0).outputs b)).out ?_)
    intro kv hkv ho hk
    exact absurd ((hcr.1 b hb).2.2.1 hk kv.1 ho) (hcols b hb kv.1 ho).2
  have hall := product_lp' (cgpmLaws 0) hqr
  have e2 : lp (cgpmI 1) none (.product q : Node (Cgpm 0)) (only ((flexArrayI (cgpmI 1)).outputs m.array)
      (Dict.set ob m.indexer (.num (k : ℚ)))) [] = _ := hall
  have e3 : lp (cgpmI 1) none (.product q : Node (Cgpm 0)) (only ((flexArrayI (cgpmI 1)).outputs m.array)
      (Dict.set ob m.indexer (.num (k : ℚ)))) [] = .ninf := by
    have hao : Prim.outputs a = [o] := c1.trans hb1
    have e4 : lp (cgpmI 0) none a (only ((cgpmI 0).outputs a) (only ((flexArrayI (cgpmI 1)).outputs m.array)
        (Dict.set ob m.indexer (.num (k : ℚ))))) (only ((cgpmI 0).outputs a) []) = .ninf := by
      rw [only_only (fun y hy => (hcols a ha y hy).1)]
      rw [show (cgpmI 0).outputs a = [o] from hao]
      rw [only_single (x := .nan) (Dict.nodup_keys_set _ _ _ oo.nodup) ?_]
      · exact logpdf_missing (hcr.1 a ha) (fun y => ProdTab.cell_none_iff.1 (hcf y) a ha) hao (c2 ▸ hb2)
      · rw [Dict.get?_set, if_neg, oo.held, hx]
        rintro rfl
        exact hp _ ho hmr.x_mem
    have hLP := Fl.isLogP_sum (l := q.cgpms.map fun b => lp (cgpmI 0) none b (only ((cgpmI 0).outputs b)
      (only ((flexArrayI (cgpmI 1)).outputs m.array) (Dict.set ob m.indexer (.num (k : ℚ)))))
      (only ((cgpmI 0).outputs b) [])) (by
        intro y hy
        obtain ⟨b, hb, rfl⟩ := List.mem_map.1 hy
        exact hqr b hb)
    rw [← e2] at hLP
    rcases hl : lp (cgpmI 1) none (.product q : Node (Cgpm 0)) (only ((flexArrayI (cgpmI 1)).outputs m.array)
      (Dict.set ob m.indexer (.num (k : ℚ)))) [] with _ | _ | _ | y
    · rw [hl] at hLP; exact hLP.elim
    · rfl
    · rw [hl] at hLP; exact hLP.elim
    · rw [hl, ← Fl.sum_eq] at e2
      obtain ⟨y', hy'⟩ := (Fl.sum_fin_iff _).1 ⟨y, e2.symm⟩ _ (List.mem_map.2 ⟨a, ha, rfl⟩)
      rw [e4] at hy'
      cases hy'
  rw [show only ((flexArrayI (cgpmI 1)).outputs m.array) [] = [] from rfl, e3]
  simp [Fl.exp]

theorem flip_ninf {l : List Fl} (h2 : 2 ≤ l.length) (h : ∀ x ∈ l, x = .ninf) (g : Rng) :
    logPflipIdx l g = (.error .valueError, g) := by
  rw [logPflipIdx_eq l (fun x hx => by rw [h x hx]; trivial)]
  match l, h2 with
  | a :: b :: l, _ =>
    unfold pflipIdx
    dsimp only [List.map]
    rw [if_neg]
    rintro ⟨-, hs⟩
    have : ((a :: b :: l).map Fl.exp).sum = 0 := by
      apply List.sum_eq_zero
      intro x hx
      obtain ⟨y, hy, rfl⟩ := List.mem_map.1 hx
      rw [h y hy]
      rfl
    exact absurd this hs.ne'

/-- A Gibbs step on a row with a missing value in a Bernoulli or Poisson column fails if there is another
row, and the row is lost. -/
theorem row_fails {Z : List Var} {v : View} (h : (cgpmTab Z 2).Reg v) (hv : IsView v)
    (hp : ∀ o ∈ viewColumns v, o ∉ Z) {r r' : RowId} (hr : (cgpmTab Z 2).present v r)
    (hr' : (cgpmTab Z 2).present v r') (hne : r' ≠ r) (hn : ¬ (cgpmTab Z 2).present v none)
    {o : Var} (ho : o ∈ viewColumns v) (hx : (cgpmTab Z 2).cell v r o = some .nan)
    (hk : ∃ m p, Flat v m p ∧ ∃ b ∈ p.cgpms, Prim.outputs b = [o] ∧
      (Prim.kind b = .bernoulli ∨ Prim.kind b = .poisson)) (g : Rng) :
    ∃ e v', transitionRows (cgpmI 1) r (v, g) = (.error e, (v', g)) ∧ (cgpmTab Z 2).Reg v' ∧
      (cgpmTab Z 2).Fresh v' r := by
  have K := cgpmTLaws Z 2
  have L := cgpmLaws 2
  obtain ⟨ob, v1, z, supp, oo⟩ := out_of h hv hp hr
  obtain ⟨m, p, hf, hz, hsupp⟩ := oo.zs
  have hfn : (cgpmTab Z 2).Fresh v1 none := fun a => by
    rw [oo.others none (fun e => hn (e ▸ hr))]
    by_contra hc
    exact hn (K.present_cell _ _ _ h hc)
  have hw := fun k (hk1 : k ∈ supp) => weight_missing h hp oo hfn ho hx hk hk1
  obtain ⟨v2, hl, hE⟩ := mapL_logpdf L (r := none) (t := fun k : Int => Dict.set ob z (.num (k : ℚ)))
    (x := fun k => lp (cgpmI 2) none v1 (Dict.set ob z (.num (k : ℚ))) []) supp v1 g
    (K.inv _ oo.reg) fun k hk1 => lp_ok L.logpdf_noDraw (by rw [hw k hk1]; trivial) (set_ne _ _ _) g
  have h2 : 2 ≤ supp.length := by
    obtain ⟨t, ht⟩ : ∃ t, Dict.get? m.rowDivide.data r' = some t := by
      have hd1 : Node.rowDivide v1 = some m.rowDivide := by rw [hf.eq]; rfl
      obtain ⟨-, -, -, hdata⟩ := reg_rowDivide (n := 1) oo.reg hd1
      rw [hdata r' _ hf.out, oo.others r' hne]
      obtain ⟨m0, p0, hf0⟩ := flat_of_reg h hv
      have e1 := hf.outputs
      rw [oo.outputs h, hf0.outputs] at e1
      injection e1 with e1 _
      rw [← e1]
      have h3 := hr'
      rw [hf0.eq] at h3 ⊢
      refine Option.ne_none_iff_exists'.1 ?_
      change (if m0.indexer = m0.indexer then Dict.get? m0.rowidToComponent r' else _) ≠ none
      rw [if_pos rfl]
      exact h3
    obtain ⟨hG, -⟩ := reg_rowDivide (n := 1) oo.reg (d := m.rowDivide) (by rw [hf.eq]; rfl)
    have hkd := hf.kind
    revert hkd hsupp ht hG
    generalize m.rowDivide = d
    intro hsupp ht hG hkd
    cases d with
    | crp c =>
      cases hsupp
      have hmem := Dict.mem_of_get? ht
      simp only [Prim.data, List.mem_map] at hmem
      obtain ⟨⟨r'', k⟩, hkv, e⟩ := hmem
      cases e
      obtain ⟨f, h1, -⟩ := Crp.support_eq (c := c)
      rw [h1, List.length_append]
      have : k ∈ c.tables := by
        rw [Crp.mem_tables hG.1]
        exact List.mem_map.2 ⟨_, hkv, rfl⟩
      have := List.length_pos_of_mem this
      simp only [List.length_cons, List.length_nil]
      omega
    | _ => cases hkd
  have hfl := flip_ninf (l := supp.map fun k : Int => lp (cgpmI 2) none v1 (Dict.set ob z (.num (k : ℚ))) [])
    (by rwa [List.length_map]) (by
      intro x hx
      obtain ⟨k, hk1, rfl⟩ := List.mem_map.1 hx
      exact hw k hk1) g
  refine ⟨.valueError, v2, (oo.steps g).trans ?_, K.reg_E _ _ hE oo.reg, fun a => ?_⟩
  · rw [hl]
    unfold finishStep
    dsimp only
    rw [hfl]
    rfl
  · rw [← K.cell_E _ _ hE oo.reg]
    exact oo.gone a

end Cgpm2.Views
