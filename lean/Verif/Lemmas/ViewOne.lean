import Verif.Lemmas.TabZ
import Verif.Lemmas.CppCrosscat
import Verif.Lemmas.Samples
import Verif.Spec.Views

/-!
# One view: adding columns, observing, sharing, taking columns out (helpers)
-/

namespace Cgpm2.Views
open Spec

theorem run_bind {T α β : Type} {m : Py T α} {f : α → Py T β} {s s' : T} {b : β}
    (h : (m >>= f) s = (.ok b, s')) : ∃ a s1, m s = (.ok a, s1) ∧ f a s1 = (.ok b, s') := by
  rw [Py.bind_apply] at h
  rcases hm : m s with ⟨e | a, s1⟩ <;> rw [hm] at h
  · cases h
  · exact ⟨a, s1, rfl, h⟩

theorem init_ok {S : Type} {I : Iface S} {l : List S} {q : Product S} (h : Product.init I l = .ok q) :
    q = ⟨l⟩ ∧ Product.validate I l = .ok () := by
  unfold Product.init at h
  rcases hv : Product.validate I l with e | u
  · rw [hv] at h; cases h
  · rw [hv] at h; cases h; exact ⟨rfl, rfl⟩

/-! ## Structure -/

theorem isView_shape {v : View} (h : IsView v) :
    ∃ o k l, (cgpmSem 2).shape v = .mix (.prim o .crp k) (.product l) := by
  obtain ⟨m, p, rfl, hk, hb⟩ := h
  refine ⟨m.rowDivide.outputs, m.rowDivide.card, p.cgpms.map (cgpmSem 0).shape, ?_⟩
  change Shape.mix m.rowDivide.shape ((cgpmSem 1).shape m.array.base) = _
  rw [hb]
  change Shape.mix (.prim m.rowDivide.outputs m.rowDivide.kind m.rowDivide.card) _ = _
  rw [hk]
  rfl

theorem isView_of_shape {Z : List Var} {v w : View} (h : (cgpmSem 2).shape w = (cgpmSem 2).shape v)
    (hw : (cgpmTab Z 2).Reg w) (hv : IsView v) : IsView w := by
  obtain ⟨o, k, l, hs⟩ := isView_shape hv
  rw [hs] at h
  rcases w with p | p | a | a | m | m
  · have h : p.shape = _ := h
    cases h
  · have h : Shape.product _ = _ := h
    cases h
  · exact hw.elim
  · exact hw.elim
  · have h : Shape.mix m.rowDivide.shape (.array (m.array.cgpms.map (cgpmSem 1).shape)) = _ := h
    simp only [Shape.mix.injEq] at h
    exact absurd h.2 nofun
  · have hb := (flexMix_base (cgpmLaws 1) (cgpmTLaws Z 1) (m := m) hw).1
    have h : Shape.mix m.rowDivide.shape ((cgpmSem 1).shape m.array.base) = _ := h
    simp only [Shape.mix.injEq] at h
    have hk : m.rowDivide.kind = .crp := by
      have h1 := h.1
      simp only [Prim.shape, Shape.prim.injEq] at h1
      exact h1.2.1
    obtain ⟨b, he⟩ : ∃ b : Node (Cgpm 0), m.array.base = b := ⟨_, rfl⟩
    rw [he] at h hb
    have h2 := h.2
    rcases b with p | p | a | a | m' | m'
    · have h : p.shape = _ := h2
      cases h
    · exact ⟨m, p, rfl, hk, he⟩
    · exact hb.elim
    · exact hb.elim
    · exact absurd h2 nofun
    · exact absurd h2 nofun

theorem isView_addable {v : View} (h : IsView v) : Addable 2 v := by
  obtain ⟨m, p, rfl, -, hb⟩ := h
  change Addable 1 m.array.base
  rw [hb]
  trivial

/-- The outputs of a view. -/
theorem view_outputs {Z : List Var} {m : FlexMix (Cgpm 1)}
    (h : (cgpmTab Z 2).Reg (.flexMix m : Node (Cgpm 1))) :
    (cgpmI 2).outputs (.flexMix m : Node (Cgpm 1)) = m.indexer :: (cgpmI 1).outputs m.array.base := by
  change m.rowDivide.outputs ++ _ = _
  rw [show m.rowDivide.outputs = [m.indexer] from MixReg.out h]
  rfl

/-! ## Adding columns -/

/-- Adding a column to a view. -/
theorem addCgpm_view {Z : List Var} {v v' : View} (h : (cgpmTab Z 2).Reg v) (hv : IsView v)
    {new : Prim} (hn : (primTab Z).Reg new) (hd : new.data = [])
    (hz : ∀ x ∈ new.outputs, x ∉ Z) (ha : addCgpm 2 v new = .ok v') :
    (cgpmTab Z 2).Reg v' ∧ IsView v' ∧ (cgpmI 2).outputs v' = (cgpmI 2).outputs v ++ new.outputs ∧
      (∀ r x, (cgpmTab Z 2).cell v' r x = (cgpmTab Z 2).cell v r x) ∧
      ∀ r, (cgpmTab Z 2).present v' r ↔ (cgpmTab Z 2).present v r := by
  have hadd := isView_addable hv
  have hf : ∀ r, (primTab Z).Fresh new r := by
    intro r x
    simp [primTab, hd]
  obtain ⟨m, p, rfl, hk, hb⟩ := hv
  obtain ⟨m', h1, rfl⟩ := except_map_ok ha
  obtain ⟨b, cs, rfl, h2, -⟩ := flexMixAdd_of (MixReg.out h) hn.1 h1
  rw [hb] at h2
  obtain ⟨q, h3, rfl⟩ := except_map_ok (show (Walk.productAdd (cgpmI 0) p (ofPrim 0 new)).map _ =
    Except.ok b from h2)
  have hq := productAdd_of (up := ofPrim 0) h3
  have hval : Product.validate (cgpmI 0) (p.cgpms ++ [ofPrim 0 new]) = .ok () := by
    unfold Walk.productAdd Product.init at h3
    rcases hv : Product.validate (cgpmI 0) (p.cgpms ++ [ofPrim 0 new]) with e | u
    · rw [hv] at h3; cases h3
    · rfl
  have hnd := Product.validate_nodup hval
  rw [List.flatMap_append, List.nodup_append] at hnd
  have hout := view_outputs h
  have hx : ∀ x ∈ new.outputs, x ∉ (cgpmI 2).outputs (.flexMix m : Node (Cgpm 1)) := by
    intro x hx hc
    rw [hout] at hc
    rcases List.mem_cons.1 hc with rfl | hc
    · exact hz _ hx (MixReg.x_mem h)
    · rw [hb] at hc
      refine hnd.2.2 x hc x ?_ rfl
      rw [List.flatMap_cons, List.flatMap_nil, List.append_nil]
      exact hx
  obtain ⟨v'', e1, e2, e3⟩ := (addLaw Z 2).ok _ new h hadd hn hf hx
  rw [ha] at e1
  cases e1
  refine ⟨e2.reg, ⟨_, _, rfl, hk, rfl⟩, e3, fun r x => ?_, e2.present⟩
  rw [e2.cell]
  split
  · rfl
  · rename_i hno
    rw [(cgpmTLaws Z 2).cell_out _ _ _ h]
    rw [e3] at hno
    exact fun hc => hno (List.mem_append_left _ hc)

/-- Adding columns to a view. -/
theorem addCgpm_views {Z : List Var} {bases : List Prim}
    (hb : ∀ p ∈ bases, (primTab Z).Reg p ∧ p.data = [] ∧ ∀ x ∈ p.outputs, x ∉ Z) {v v' : View}
    (h : (cgpmTab Z 2).Reg v) (hv : IsView v) (ha : bases.foldlM (addCgpm 2) v = .ok v') :
    (cgpmTab Z 2).Reg v' ∧ IsView v' ∧
      (cgpmI 2).outputs v' = (cgpmI 2).outputs v ++ bases.flatMap Prim.outputs ∧
      (∀ r x, (cgpmTab Z 2).cell v' r x = (cgpmTab Z 2).cell v r x) ∧
      ∀ r, (cgpmTab Z 2).present v' r ↔ (cgpmTab Z 2).present v r := by
  induction bases generalizing v with
  | nil => cases ha; exact ⟨h, hv, by simp, fun _ _ => rfl, fun _ => Iff.rfl⟩
  | cons p bases ih =>
    rw [List.foldlM_cons] at ha
    rcases h1 : addCgpm 2 v p with e | v1
    · rw [h1] at ha; cases ha
    · rw [h1] at ha
      obtain ⟨p1, p2, p3⟩ := hb p (by simp)
      obtain ⟨a1, a2, a3, a4, a5⟩ := addCgpm_view h hv p1 p2 p3 h1
      obtain ⟨b1, b2, b3, b4, b5⟩ := ih (fun q hq => hb q (by simp [hq])) a1 a2 ha
      refine ⟨b1, b2, ?_, fun r x => (b4 r x).trans (a4 r x), fun r => (b5 r).trans (a5 r)⟩
      rw [b3, a3, List.flatMap_cons, List.append_assoc]

/-! ## Observing -/

/-- Observing entries of a data set, one after the other. -/
theorem observeAll_ok {Z : List Var} {l : List (RowId × Dict Var Val)} (hw : ∀ e ∈ l, Whole Z e.2)
    {v v' : View} {g g' : Rng} (h : (cgpmTab Z 2).Reg v)
    (ho : observeAll l (v, g) = (.ok (), (v', g'))) :
    (cgpmTab Z 2).Reg v' ∧ (cgpmSem 2).shape v' = (cgpmSem 2).shape v ∧
      (cgpmI 2).outputs v' = (cgpmI 2).outputs v ∧
      (∀ r x a, (cgpmTab Z 2).cell v r x = some a → (cgpmTab Z 2).cell v' r x = some a) ∧
      (∀ r x, x ∉ Z → (cgpmTab Z 2).cell v r x = none →
        (∀ e ∈ l, e.1 = r → Dict.get? e.2 x = none) → (cgpmTab Z 2).cell v' r x = none) ∧
      (∀ r x a, x ∈ (cgpmI 2).outputs v → x ∉ Z → (cgpmTab Z 2).cell v r x = none →
        (∀ e ∈ l, e.1 = r → ∀ b, Dict.get? e.2 x = some b → b = a) →
        (∃ e ∈ l, e.1 = r ∧ Dict.get? e.2 x = some a) → (cgpmTab Z 2).cell v' r x = some a) ∧
      (∀ r, (cgpmTab Z 2).present v' r ↔ (cgpmTab Z 2).present v r ∨ ∃ e ∈ l, e.1 = r) := by
  induction l generalizing v g with
  | nil =>
    cases ho
    refine ⟨h, rfl, rfl, fun _ _ _ h => h, fun _ _ _ h _ => h, fun r x a _ _ _ _ hx => ?_,
      fun r => by simp⟩
    obtain ⟨e, he, -⟩ := hx
    cases he
  | cons e l ih =>
    obtain ⟨r0, d⟩ := e
    unfold observeAll at ho
    obtain ⟨⟨⟩, ⟨v1, g1⟩, h1, h2⟩ := run_bind ho
    have hL := cgpmLaws 2
    have hK := cgpmTLaws Z 2
    obtain ⟨a1, a2, a3, a4, a5, a6, a7⟩ := hK.observe _ _ _ _ _ _ _ h (hw (r0, d) (by simp)) h1
    have s1 := hL.shape_observe (hK.inv _ h) r0 d [] g
    have s2 : (cgpmI 2).outputs ((cgpmI 2).observe r0 d [] (v, g)).2.1 = (cgpmI 2).outputs v :=
      congrArg Prod.fst (hL.observe_attrs r0 d [] v g (hK.inv _ h))
    rw [h1] at s1 s2
    dsimp only at s1 s2
    obtain ⟨b1, b2, b3, b4, b5, b6, b7⟩ := ih (fun e he => hw e (by simp [he])) a1 h2
    have kept : ∀ r x a, (cgpmTab Z 2).cell v r x = some a → (cgpmTab Z 2).cell v1 r x = some a := by
      intro r x a hx
      by_cases hr : r = r0
      · subst hr; exact a5 x a hx
      · rw [a4 r x hr]; exact hx
    refine ⟨b1, b2.trans s1, b3.trans s2, fun r x a hx => b4 r x a (kept r x a hx), ?_, ?_, ?_⟩
    · intro r x hxz hx hl
      refine b5 r x hxz ?_ fun e he => hl e (by simp [he])
      by_cases hr : r = r0
      · subst hr; exact a7 x hxz hx (hl (r, d) (by simp) rfl)
      · rw [a4 r x hr]; exact hx
    · intro r x a hxo hxz hx hu he
      by_cases hr : r = r0
      · subst hr
        rcases hd : Dict.get? d x with _ | b
        · refine b6 r x a (by rw [s2]; exact hxo) hxz (a7 x hxz hx hd)
            (fun e he => hu e (by simp [he])) ?_
          obtain ⟨e, he, hr, hx⟩ := he
          rcases List.mem_cons.1 he with rfl | he
          · dsimp only at hx; rw [hd] at hx; cases hx
          · exact ⟨e, he, hr, hx⟩
        · have := hu (r, d) (by simp) rfl b hd
          subst this
          exact b4 r x b (a6 x hxo b hx hd)
      · refine b6 r x a (by rw [s2]; exact hxo) hxz (by rw [a4 r x hr]; exact hx)
            (fun e he => hu e (by simp [he])) ?_
        obtain ⟨e, he, hr', hx⟩ := he
        rcases List.mem_cons.1 he with rfl | he
        · exact absurd hr'.symm hr
        · exact ⟨e, he, hr', hx⟩
    · intro r
      rw [b7]
      by_cases hr : r = r0
      · subst hr
        exact ⟨fun _ => .inr ⟨(r, d), by simp, rfl⟩, fun _ => .inl a2⟩
      · rw [a3 r hr]
        refine or_congr_right ⟨fun ⟨e, he, her⟩ => ⟨e, by simp [he], her⟩, fun ⟨e, he, her⟩ => ?_⟩
        rcases List.mem_cons.1 he with rfl | he
        · exact absurd her.symm hr
        · exact ⟨e, he, her⟩

/-! ## Sharing -/

/-- `v'` has the outputs and the cells of `v`; the rows `D` may have got clusters. -/
structure Kept (Z : List Var) (D : RowId → Prop) (v v' : View) : Prop where
  reg : (cgpmTab Z 2).Reg v'
  view : IsView v'
  outs : (cgpmI 2).outputs v' = (cgpmI 2).outputs v
  cell : ∀ r x, x ∉ Z → (cgpmTab Z 2).cell v' r x = (cgpmTab Z 2).cell v r x
  kept : ∀ r x a, (cgpmTab Z 2).cell v r x = some a → (cgpmTab Z 2).cell v' r x = some a
  rows : ∀ r, ((cgpmTab Z 2).present v r → (cgpmTab Z 2).present v' r) ∧
    ((cgpmTab Z 2).present v' r → (cgpmTab Z 2).present v r ∨ D r)

theorem Kept.refl {Z : List Var} {D : RowId → Prop} {v : View} (h : (cgpmTab Z 2).Reg v)
    (hv : IsView v) : Kept Z D v v :=
  ⟨h, hv, rfl, fun _ _ _ => rfl, fun _ _ _ h => h, fun _ => ⟨id, .inl⟩⟩

theorem present_product {Z : List Var} {c b : Cgpm 1} {p : Product (Cgpm 0)}
    (hb : b = (.product p : Node (Cgpm 0))) (hs : (cgpmSem 1).shape c = (cgpmSem 1).shape b)
    (h : (cgpmTab Z 1).Reg c) (r : RowId) : (cgpmTab Z 1).present c r := by
  subst hb
  rcases c with q | q | a | a | m' | m'
  · have hs : q.shape = Shape.product _ := hs
    cases hs
  · trivial
  · exact h.elim
  · exact h.elim
  · have hs : Shape.mix _ _ = Shape.product _ := hs
    cases hs
  · have hs : Shape.mix _ _ = Shape.product _ := hs
    cases hs

/-- The view a proposal was made from, after the proposal got its rows. -/
theorem share_kept {Z : List Var} {D : RowId → Prop} {v q : View} (h : (cgpmTab Z 2).Reg v) (hv : IsView v)
    (hq : (cgpmTab Z 2).Reg q) (hqv : IsView q)
    (ho : ((cgpmI 2).outputs q).head? = ((cgpmI 2).outputs v).head?)
    (hc : ∀ r a, ∀ x ∈ ((cgpmI 2).outputs v).head?, (cgpmTab Z 2).cell v r x = some a →
      (cgpmTab Z 2).cell q r x = some a)
    (hd : ∀ r, (cgpmTab Z 2).present q r ↔ (cgpmTab Z 2).present v r ∨ D r) : Kept Z D v (share v q) := by
  obtain ⟨m, p, rfl, hk, hb⟩ := hv
  obtain ⟨n, p', rfl, hk', -⟩ := hqv
  rw [view_outputs h, view_outputs hq] at ho
  rw [view_outputs h] at hc
  have ho : n.indexer = m.indexer := by simpa using ho
  have h : MixReg _ _ _ _ _ _ _ m := h
  have hq : MixReg _ _ _ _ _ _ _ n := hq
  have hc : ∀ r z, Dict.get? m.rowidToComponent r = some z → Dict.get? n.rowidToComponent r = some z := by
    intro r z hz
    have := hc r z m.indexer (by simp)
    have e1 : (cgpmTab Z 2).cell (.flexMix m : Node (Cgpm 1)) r m.indexer =
      Dict.get? m.rowidToComponent r := if_pos rfl
    have e2 : (cgpmTab Z 2).cell (.flexMix n : Node (Cgpm 1)) r m.indexer =
      Dict.get? n.rowidToComponent r := if_pos ho.symm
    rw [e1, e2] at this
    exact this hz
  have hout : n.rowDivide.outputs = m.rowDivide.outputs := by rw [h.out, hq.out, ho]
  change Kept Z D _ (.flexMix { m with
      rowDivide := n.rowDivide
      rowidToComponent := n.rowidToComponent
      array := { m.array with rowidToIndex := n.array.rowidToIndex } } : Node (Cgpm 1))
  have hreg : (flexMixTab (cgpmI 1) (cgpmSem 1) Z (cgpmTab Z 1)).Reg { m with
      rowDivide := n.rowDivide
      rowidToComponent := n.rowidToComponent
      array := { m.array with rowidToIndex := n.array.rowidToIndex } } := {
    inv := ⟨hq.inv.1, ⟨h.inv.2.1.1, h.inv.2.1.2.1, h.inv.2.1.2.2.1, hq.inv.2.1.2.2.2⟩,
      hq.inv.2.2.1, trivial⟩
    inputs := hq.inputs
    divides := hq.divides
    x_eq := h.x_eq.trans ho.symm
    x_mem := hq.x_mem
    x_out := by
      change n.indexer ∉ _
      rw [ho]; exact h.x_out
    inputsX := h.inputsX
    nodup := h.nodup
    comp := h.comp
    data := hq.data
    idx := hq.idx
    books := fun r z hz => ⟨(hq.books r z hz).1, _, rfl,
      present_product hb (h.inv.2.1.2.1 z).2.2 (h.comp z _ rfl).1 r⟩
    fresh := fun r k c hk hn => h.fresh r k c hk fun hz => hn (hc r k hz) }
  have hcell : ∀ r x, x ≠ m.indexer → (cgpmTab Z 2).cell (.flexMix { m with
      rowDivide := n.rowDivide
      rowidToComponent := n.rowidToComponent
      array := { m.array with rowidToIndex := n.array.rowidToIndex } } : Node (Cgpm 1)) r x =
      (cgpmTab Z 2).cell (.flexMix m : Node (Cgpm 1)) r x := by
    intro r x hx
    change (if x = n.indexer then _ else _) = (if x = m.indexer then _ else _)
    rw [if_neg hx, if_neg (by rw [ho]; exact hx)]
    rcases hz : Dict.get? m.rowidToComponent r with _ | z
    · rcases hz' : Dict.get? n.rowidToComponent r with _ | z'
      · rfl
      · exact h.fresh r z' _ rfl (by rw [hz]; nofun) x
    · rw [hc r z hz]
      rfl
  refine ⟨hreg, ⟨_, p, rfl, hk', hb⟩, ?_, fun r x hx => ?_, fun r x a hx => ?_,
    fun r => ⟨fun h' => (hd r).2 (.inl h'), (hd r).1⟩⟩
  · change n.rowDivide.outputs ++ _ = m.rowDivide.outputs ++ _
    rw [hout]
    rfl
  · exact hcell r x fun e => hx (e ▸ h.x_mem)
  · by_cases hxi : x = m.indexer
    · change (if x = n.indexer then _ else _) = _
      rw [if_pos (by rw [ho]; exact hxi)]
      refine hc r a ?_
      have hx : (if x = m.indexer then _ else _) = _ := hx
      rwa [if_pos hxi] at hx
    · rw [hcell r x hxi]; exact hx

/-! ## Proposals -/

/-- Bases and data sets of the columns `outs`, whose cells are given by `X`. -/
structure Fed (Z : List Var) (X : RowId → Var → Option Val) (outs : List Var) (bases : List Prim)
    (data : List (RowId × Dict Var Val)) : Prop where
  base : bases.flatMap Prim.outputs = outs
  reg : ∀ p ∈ bases, (primTab Z).Reg p ∧ p.data = [] ∧ ∀ x ∈ p.outputs, x ∉ Z
  out : ∀ o ∈ outs, o ∉ Z
  cell : ∀ r, ∀ o ∈ outs, ∀ a, X r o = some a ↔ ∃ e ∈ data, e.1 = r ∧ Dict.get? e.2 o = some a
  other : ∀ e ∈ data, ∀ x, x ∉ outs → Dict.get? e.2 x = none
  valued : ∀ e ∈ data, ∃ o ∈ outs, Dict.get? e.2 o ≠ none

/-- The rows with a value in one of the columns. -/
def Valued (X : RowId → Var → Option Val) (outs : List Var) (r : RowId) : Prop :=
  ∃ o ∈ outs, X r o ≠ none

theorem Fed.rows {Z : List Var} {X : RowId → Var → Option Val} {outs : List Var} {bases : List Prim}
    {data : List (RowId × Dict Var Val)} (h : Fed Z X outs bases data) (r : RowId) :
    (∃ e ∈ data, e.1 = r) ↔ Valued X outs r := by
  constructor
  · rintro ⟨e, he, rfl⟩
    obtain ⟨o, ho, hg⟩ := h.valued e he
    obtain ⟨a, ha⟩ := Option.ne_none_iff_exists'.1 hg
    exact ⟨o, ho, by rw [(h.cell e.1 o ho a).2 ⟨e, he, rfl, ha⟩]; nofun⟩
  · rintro ⟨o, ho, hX⟩
    obtain ⟨a, ha⟩ := Option.ne_none_iff_exists'.1 hX
    obtain ⟨e, he, her, -⟩ := (h.cell r o ho a).1 ha
    exact ⟨e, he, her⟩

theorem Fed.whole {Z : List Var} {X : RowId → Var → Option Val} {outs : List Var} {bases : List Prim}
    {data : List (RowId × Dict Var Val)} (h : Fed Z X outs bases data) : ∀ e ∈ data, Whole Z e.2 := by
  intro e he x hx a ha
  rw [h.other e he x fun hc => h.out x hc hx] at ha
  cases ha

/-- What observing the data of new, empty columns does. -/
theorem Fed.observe {Z : List Var} {X : RowId → Var → Option Val} {outs : List Var} {bases : List Prim}
    {data : List (RowId × Dict Var Val)} (h : Fed Z X outs bases data) {v v' : View} {g g' : Rng}
    (hr : (cgpmTab Z 2).Reg v) (hv : IsView v) (hs : ∀ o ∈ outs, o ∈ (cgpmI 2).outputs v)
    (hf : ∀ r, ∀ o ∈ outs, (cgpmTab Z 2).cell v r o = none)
    (ho : observeAll data (v, g) = (.ok (), (v', g'))) :
    (cgpmTab Z 2).Reg v' ∧ IsView v' ∧ (cgpmI 2).outputs v' = (cgpmI 2).outputs v ∧
      (∀ r x a, (cgpmTab Z 2).cell v r x = some a → (cgpmTab Z 2).cell v' r x = some a) ∧
      (∀ r x, x ∉ Z → x ∉ outs → (cgpmTab Z 2).cell v' r x = (cgpmTab Z 2).cell v r x) ∧
      (∀ r, ∀ x ∈ outs, (cgpmTab Z 2).cell v' r x = X r x) ∧
      (∀ r, (cgpmTab Z 2).present v' r ↔ (cgpmTab Z 2).present v r ∨ Valued X outs r) := by
  obtain ⟨a1, a2, a3, a4, a5, a6, a7⟩ := observeAll_ok h.whole hr ho
  refine ⟨a1, isView_of_shape a2 a1 hv, a3, a4, fun r x hx hxo => ?_, fun r x hx => ?_,
    fun r => by rw [a7, h.rows]⟩
  · rcases hc : (cgpmTab Z 2).cell v r x with _ | a
    · exact a5 r x hx hc fun e he _ => h.other e he x hxo
    · exact a4 r x a hc
  · rcases hc : X r x with _ | a
    · refine a5 r x (h.out x hx) (hf r x hx) fun e he hr => ?_
      rcases hd : Dict.get? e.2 x with _ | b
      · rfl
      · have := (h.cell r x hx b).2 ⟨e, he, hr, hd⟩
        rw [hc] at this; cases this
    · refine a6 r x a (hs x hx) (h.out x hx) (hf r x hx) (fun e he hr b hb => ?_)
        ((h.cell r x hx a).1 hc)
      have := (h.cell r x hx b).2 ⟨e, he, hr, hb⟩
      rw [hc] at this
      exact (Option.some.inj this).symm

/-- `p` is `v` with the columns `outs`, whose cells are given by `X`. -/
structure Proposal (Z : List Var) (X : RowId → Var → Option Val) (outs : List Var) (v p : View) :
    Prop where
  reg : (cgpmTab Z 2).Reg p
  view : IsView p
  out : (cgpmI 2).outputs p = (cgpmI 2).outputs v ++ outs
  cell : ∀ r x, x ∉ Z → x ∉ outs → (cgpmTab Z 2).cell p r x = (cgpmTab Z 2).cell v r x
  kept : ∀ r x a, (cgpmTab Z 2).cell v r x = some a → (cgpmTab Z 2).cell p r x = some a
  new : ∀ r, ∀ x ∈ outs, (cgpmTab Z 2).cell p r x = X r x
  rows : ∀ r, (cgpmTab Z 2).present p r ↔ (cgpmTab Z 2).present v r ∨ Valued X outs r

theorem proposalExisting_ok {Z : List Var} {X : RowId → Var → Option Val} {outs : List Var}
    {bases : List Prim} {datasets : List (List (RowId × Dict Var Val))}
    (h : Fed Z X outs bases datasets.flatten) {v v' p : View} {g g' : Rng}
    (hr : (cgpmTab Z 2).Reg v) (hv : IsView v)
    (ho : proposalExisting bases datasets (v, g) = (.ok p, (v', g'))) :
    Proposal Z X outs v p ∧ Kept Z (Valued X outs) v v' := by
  unfold proposalExisting at ho
  dsimp only at ho
  rcases ha : bases.foldlM (addCgpm 2) v with e | q
  · rw [ha] at ho; cases ho
  · rw [ha] at ho
    dsimp only at ho
    rcases hob : observeAll datasets.flatten (q, g) with ⟨_ | ⟨⟩, q', g1⟩
    · rw [hob] at ho; cases ho
    · rw [hob] at ho
      cases ho
      obtain ⟨a1, a2, a3, a4, a5⟩ := addCgpm_views h.reg hr hv ha
      rw [h.base] at a3
      have hnd : ((cgpmI 2).outputs v ++ outs).Nodup := a3 ▸ (cgpmTLaws Z 2).nodup _ a1
      have hf : ∀ r, ∀ o ∈ outs, (cgpmTab Z 2).cell v r o = none := fun r o ho =>
        (cgpmTLaws Z 2).cell_out _ _ _ hr fun hc => (List.nodup_append.1 hnd).2.2 o hc o ho rfl
      obtain ⟨b1, b2, b3, b4, b5, b6, b7⟩ := h.observe a1 a2
        (fun o ho => by rw [a3]; exact List.mem_append_right _ ho)
        (fun r o ho => (a4 r o).trans (hf r o ho)) hob
      have hne : (cgpmI 2).outputs v ≠ [] := (cgpmFrame Z 2).some v hr
      refine ⟨⟨b1, b2, b3.trans a3, fun r x hx hxo => (b5 r x hx hxo).trans (a4 r x),
        fun r x a hx => b4 r x a ((a4 r x).trans hx), b6, fun r => by rw [b7, a5]⟩,
        share_kept hr hv b1 b2 ?_ ?_ fun r => by rw [b7, a5]⟩
      · rw [b3, a3, List.head?_append_of_ne_nil _ hne]
      · intro r a x _ hx
        exact b4 r x a ((a4 r x).trans hx)

/-! ## A new view -/

theorem flexMix_init_inv {Z : List Var} {n : Nat} {d : Prim} {b : Cgpm n} (hd : d.Good)
    (ih : (cgpmTab Z n).Reg b) (hs : (cgpmI n).logpdfScore b = .ok (.fin 0)) :
    (flexMixSem (cgpmI n) (cgpmSem n)).Inv ⟨d, FlexArray.init b (d.outputs.headD 0), []⟩ := by
  have K := cgpmTLaws Z n
  have L := cgpmLaws n
  have hst := L.strip _ (K.inv _ ih)
  have hsc : (cgpmI n).logpdfScore ((cgpmSem n).strip b) = .ok (.fin 0) :=
    (L.score_E _ _ hst).symm.trans hs
  exact ⟨hd, ⟨⟨K.inv _ ih, hs⟩, fun k => ⟨L.inv_strip (K.inv _ ih),
        ⟨0, hsc⟩, (L.shape_E hst).symm⟩,
        by simp [FlexArray.init], by simp [FlexArray.init]⟩, by simp, trivial⟩

theorem flexMix_init_reg {Z : List Var} {n : Nat} {d : Prim} {b : Cgpm n} (hd : d.Good)
    (hi : d.inputs = []) (hk : Divides d) (hz : ∀ v ∈ d.outputs, v ∈ Z) (he : d.data = [])
    (ih : (cgpmTab Z n).Reg b) (hbe : ∀ r, (cgpmTab Z n).Fresh b r)
    (hs : (cgpmI n).logpdfScore b = .ok (.fin 0)) (hx : ∀ v ∈ d.outputs, v ∉ (cgpmI n).outputs b) :
    (flexMixTab (cgpmI n) (cgpmSem n) Z (cgpmTab Z n)).Reg
      ⟨d, FlexArray.init b (d.outputs.headD 0), []⟩ := by
  have K := cgpmTLaws Z n
  have L := cgpmLaws n
  obtain ⟨x, h1⟩ := hd.1.out
  have hxx : RowMix.indexer (⟨d, FlexArray.init b (d.outputs.headD 0), []⟩ : FlexMix (Cgpm n)) = x := by
    simp [RowMix.indexer, h1]
  have hget : ∀ k c, (flexArr (cgpmSem n)).get (FlexArray.init b (d.outputs.headD 0)) k = some c →
      c = (cgpmSem n).strip b := by
    intro k c hk
    cases hk
    rfl
  have hst := L.strip _ (K.inv _ ih)
  have hrs := K.reg_E _ _ hst ih
  exact {
    inv := flexMix_init_inv hd ih hs
    inputs := hi
    divides := hk
    x_eq := rfl
    x_mem := by rw [hxx]; exact hz x (by simp [h1])
    x_out := by rw [hxx]; exact hx x (by simp [h1])
    inputsX := K.inputs _ ih
    nodup := K.nodup _ ih
    comp := fun k c hk => by
      rw [hget k c hk]
      exact ⟨hrs, (L.outputs_E hst).symm⟩
    data := fun r => by simp [he, Dict.get?]
    idx := fun r => by simp [flexArr, FlexArray.init]
    books := fun r z hz => by simp [Dict.get?] at hz
    fresh := fun r k c hk _ => by
      rw [hget k c hk]
      intro v
      rw [← K.cell_E _ _ hst ih]
      exact hbe r v }

/-- Observing never changes the outputs. -/
theorem observeAll_outputs {l : List (RowId × Dict Var Val)} {v v' : View} {g g' : Rng}
    (h : (cgpmSem 2).Inv v) (ho : observeAll l (v, g) = (.ok (), (v', g'))) :
    (cgpmI 2).outputs v' = (cgpmI 2).outputs v := by
  induction l generalizing v g with
  | nil => cases ho; rfl
  | cons e l ih =>
    obtain ⟨r0, d⟩ := e
    unfold observeAll at ho
    obtain ⟨⟨⟩, ⟨v1, g1⟩, h1, h2⟩ := run_bind ho
    have s1 : (cgpmI 2).outputs ((cgpmI 2).observe r0 d [] (v, g)).2.1 = (cgpmI 2).outputs v :=
      congrArg Prod.fst ((cgpmLaws 2).observe_attrs r0 d [] v g h)
    have s2 := (cgpmLaws 2).inv_observe h r0 d [] g
    rw [h1] at s1 s2
    exact (ih s2 h2).trans s1

theorem Fed.cons {Z : List Var} {X : RowId → Var → Option Val} {outs : List Var} {bases : List Prim}
    {data : List (RowId × Dict Var Val)} (h : Fed Z X outs bases data) {z : Var} (hz : z ∉ outs) :
    Fed (z :: Z) X outs bases data where
  base := h.base
  reg := fun p hp => by
    obtain ⟨h1, h2, h3⟩ := h.reg p hp
    have hpo : ∀ x ∈ p.outputs, x ≠ z := fun x hx e =>
      hz (by rw [← h.base, ← e]; exact List.mem_flatMap.2 ⟨p, hp, hx⟩)
    refine ⟨primTab_Z h1 fun x hx => ?_, h2, fun x hx => ?_⟩
    · simp [hpo x hx]
    · simp [hpo x hx, h3 x hx]
  out := fun o ho => by
    have : o ≠ z := fun e => hz (e ▸ ho)
    simp [this, h.out o ho]
  cell := h.cell
  other := h.other
  valued := h.valued

/-- A new view of the columns `outs`, whose cells are given by `X`. -/
structure Single (Z : List Var) (X : RowId → Var → Option Val) (outs : List Var) (z : Var) (p : View) :
    Prop where
  reg : (cgpmTab (z :: Z) 2).Reg p
  view : IsView p
  new : ∀ r, ∀ x ∈ outs, (cgpmTab Z 2).cell p r x = X r x
  rows : ∀ r, (cgpmTab Z 2).present p r ↔ Valued X outs r

theorem proposalSingleton_ok {Z : List Var} {X : RowId → Var → Option Val} {outs : List Var}
    {bases : List Prim} {datasets : List (List (RowId × Dict Var Val))}
    (h : Fed Z X outs bases datasets.flatten) (hne : outs ≠ []) {p : View} {g g' : Rng}
    (ho : proposalSingleton bases datasets g = (.ok p, g')) :
    ∃ z, (cgpmI 2).outputs p = z :: outs ∧ (z ∉ outs → Single Z X outs z p) := by
  unfold proposalSingleton at ho
  rcases hr : randint g with ⟨_ | k, g1⟩
  · rw [hr] at ho; cases ho
  rw [hr] at ho
  dsimp only at ho
  rcases hm : (do
        let base ← Product.init primI bases
        FlexMix.init (.crp (Crp.init [(k : Int)] [] [] [])) (.product base : Node Prim) :
          Except Err (FlexMix (Node Prim))) with e | m
  · rw [hm] at ho; cases ho
  rw [hm] at ho
  dsimp only at ho
  rcases hob : observeAll datasets.flatten ((.flexMix m : Node (Node Prim)), g1) with ⟨_ | ⟨⟩, q', g2⟩
  · rw [hob] at ho; cases ho
  rw [hob] at ho
  cases ho
  rcases hv : Product.validate primI bases with e | u
  · unfold Product.init at hm
    rw [hv] at hm; cases hm
  have hbne : bases ≠ [] := by
    rintro rfl
    exact hne (by rw [← h.base]; rfl)
  have hbase : ∀ {Z' : List Var}, (∀ p ∈ bases, (primTab Z').Reg p) →
      (cgpmTab Z' 1).Reg (.product ⟨bases⟩ : Node Prim) := fun hb => ⟨hb, hv, hbne⟩
  have hm' : m = ⟨.crp (Crp.init [(k : Int)] [] [] []),
      FlexArray.init (.product ⟨bases⟩ : Node Prim) (k : Int), []⟩ := by
    unfold Product.init FlexMix.init at hm
    rw [hv] at hm
    cases hm
    rfl
  have hgood : (Prim.crp (Crp.init [(k : Int)] [] [] [])).Good := by
    refine ⟨Crp.inv_init _ _ _ _, ?_⟩
    simp [LegalHypers, Crp.init]
  have hfresh : ∀ r, (cgpmTab Z 1).Fresh (.product ⟨bases⟩ : Node Prim) r := by
    intro r x
    refine ProdTab.cell_none_iff.2 fun p hp => ?_
    simp [cgpmTab, primTab, (h.reg p hp).2.1]
  have hscore : (cgpmI 1).logpdfScore (.product ⟨bases⟩ : Node Prim) = .ok (.fin 0) := by
    refine (cgpmFrame Z 1).zero _ (hbase fun p hp => (h.reg p hp).1) hfresh ?_
    refine (sumScore_fin_iff primI.logpdfScore bases).2 fun p hp => ?_
    exact ⟨_, Prim.logpdfScore_eq (h.reg p hp).1.1.1 (h.reg p hp).1.1.2⟩
  have hout : (cgpmI 2).outputs (.flexMix m : Node (Node Prim)) = (k : Int) :: outs := by
    rw [hm', ← h.base]; rfl
  refine ⟨(k : Int), ?_, fun hz => ?_⟩
  · rw [← hout]
    refine observeAll_outputs ?_ hob
    rw [hm']
    exact flexMix_init_inv hgood (hbase fun p hp => (h.reg p hp).1) hscore
  · have h' := h.cons hz
    have hreg : (cgpmTab ((k : Int) :: Z) 2).Reg (.flexMix m : Node (Node Prim)) := by
      rw [hm']
      refine flexMix_init_reg hgood rfl (.inl rfl) (fun x hx => ?_) rfl
        (hbase fun p hp => (h'.reg p hp).1) (fun r x => ?_) hscore (fun x hx => ?_)
      · have hx : x ∈ [(k : Int)] := hx
        rw [List.mem_singleton.1 hx]
        exact List.mem_cons_self
      · rw [(cellsZ _ Z 1).1]
        exact hfresh r x
      · have hx : x ∈ [(k : Int)] := hx
        rw [List.mem_singleton.1 hx]
        rw [← h.base] at hz
        exact hz
    have hview : IsView (.flexMix m : Node (Node Prim)) := by
      rw [hm']
      exact ⟨_, ⟨bases⟩, rfl, rfl, rfl⟩
    have hcells : ∀ r x, (cgpmTab ((k : Int) :: Z) 2).cell (.flexMix m : Node (Node Prim)) r x = none := by
      intro r x
      rw [hm']
      change (if x = _ then Dict.get? [] r else (Dict.get? [] r).bind _) = none
      simp [Dict.get?]
    obtain ⟨b1, b2, -, -, -, b6, b7⟩ := h'.observe hreg hview
      (fun o ho => by rw [hout]; exact List.mem_cons_of_mem _ ho) (fun r o _ => hcells r o) hob
    have hpres : ∀ r, ¬ (cgpmTab ((k : Int) :: Z) 2).present (.flexMix m : Node (Node Prim)) r := by
      intro r
      rw [hm']
      change ¬ Dict.get? [] r ≠ none
      simp [Dict.get?]
    exact ⟨b1, b2, fun r x hx => by rw [(cellsZ Z ((k : Int) :: Z) 2).1]; exact b6 r x hx,
      fun r => by rw [(cellsZ Z ((k : Int) :: Z) 2).2, b7]; simp [hpres r]⟩

/-! ## Taking columns out -/

/-- A view, possibly one without columns. -/
structure Flat (v : View) (m : FlexMix (Cgpm 1)) (p : Product (Cgpm 0)) : Prop where
  eq : v = (.flexMix m : Node (Cgpm 1))
  base : m.array.base = (.product p : Node (Cgpm 0))
  kind : m.rowDivide.kind = .crp
  out : m.rowDivide.outputs = [m.indexer]
  single : ∀ q ∈ p.cgpms, ∃ a, (cgpmI 0).outputs q = [a]
  nodup : (p.cgpms.flatMap (cgpmI 0).outputs).Nodup

theorem Flat.view {v : View} {m : FlexMix (Cgpm 1)} {p : Product (Cgpm 0)} (h : Flat v m p) :
    IsView v := ⟨m, p, h.eq, h.kind, h.base⟩

theorem Flat.outputs {v : View} {m : FlexMix (Cgpm 1)} {p : Product (Cgpm 0)} (h : Flat v m p) :
    (cgpmI 2).outputs v = m.indexer :: p.cgpms.flatMap (cgpmI 0).outputs := by
  rw [h.eq]
  change m.rowDivide.outputs ++ (cgpmI 1).outputs m.array.base = _
  rw [h.out, h.base]
  rfl

theorem flat_of_reg {Z : List Var} {v : View} (h : (cgpmTab Z 2).Reg v) (hv : IsView v) :
    ∃ m p, Flat v m p := by
  obtain ⟨m, p, rfl, hk, hb⟩ := hv
  have h : MixReg _ _ _ _ _ _ _ m := h
  have hr := (flexMix_base (cgpmLaws 1) (cgpmTLaws Z 1) (m := m) h).1
  rw [hb] at hr
  refine ⟨m, p, rfl, hb, hk, h.out, fun q hq => ?_, Product.validate_nodup hr.2.1⟩
  exact (show (q : Prim).Inv from (hr.1 q hq).1.1).out

theorem flat_filter {l : List (Cgpm 0)} (h : ∀ q ∈ l, ∃ a, (cgpmI 0).outputs q = [a]) (o : Var) :
    (l.filter fun c => decide (o ∉ (cgpmI 0).outputs c)).flatMap (cgpmI 0).outputs =
      (l.flatMap (cgpmI 0).outputs).filter fun v => decide (v ≠ o) := by
  induction l with
  | nil => rfl
  | cons q l ih =>
    obtain ⟨a, ha⟩ := h q (by simp)
    have ih := ih fun q hq => h q (by simp [hq])
    rw [List.filter_cons, List.flatMap_cons, List.filter_append, ← ih, ha]
    by_cases hoa : o = a
    · subst hoa; simp
    · simp [hoa, ha, Ne.symm hoa]

theorem remove_flat {v v' : View} {m : FlexMix (Cgpm 1)} {p : Product (Cgpm 0)} (h : Flat v m p)
    {o : Var} (ho : removeCgpm 2 v o = .ok v') :
    o ≠ m.indexer ∧ ∃ m', Flat v' m' ⟨p.cgpms.filter fun c => decide (o ∉ (cgpmI 0).outputs c)⟩ ∧
      m'.indexer = m.indexer := by
  rw [h.eq] at ho
  obtain ⟨m', h1, rfl⟩ := except_map_ok (show (Walk.flexMixRemove (removeCgpm 1) m o).map _ = _ from ho)
  have hx : o ≠ m.indexer := by
    rintro rfl
    unfold Walk.flexMixRemove at h1
    rw [if_pos rfl] at h1
    cases h1
  obtain ⟨e1, e2⟩ := flexMixRemove_of h1
  rw [h.base] at e2
  obtain ⟨q, h2, h3⟩ := except_map_ok (show (Walk.productRemove (cgpmI 0) p o).map _ = _ from e2)
  rw [productRemove_ok h.nodup] at h2
  obtain ⟨rfl, -⟩ := init_ok h2
  have hi : m'.indexer = m.indexer := by rw [RowMix.indexer, RowMix.indexer, e1]
  refine ⟨hx, m', ⟨rfl, h3.symm, by rw [e1]; exact h.kind, by rw [e1, hi]; exact h.out,
    fun q hq => h.single q (List.mem_of_mem_filter hq), ?_⟩, hi⟩
  exact nodup_filter h.nodup _

theorem remove_edit {Z : List Var} {v v' : View} {m : FlexMix (Cgpm 1)} {p : Product (Cgpm 0)}
    (h : Flat v m p) (hr : (cgpmTab Z 2).Reg v) {o : Var} (ho : removeCgpm 2 v o = .ok v')
    (hl : 1 < ((cgpmI 2).outputs v').length) :
    (cgpmTab Z 2).Reg v' ∧ (∀ r, ∀ x ∈ (cgpmI 2).outputs v',
      (cgpmTab Z 2).cell v' r x = (cgpmTab Z 2).cell v r x) ∧
      ∀ r, (cgpmTab Z 2).present v' r ↔ (cgpmTab Z 2).present v r := by
  obtain ⟨hx, m', hf, -⟩ := remove_flat h ho
  have hrem : Removable 2 v o := by
    rw [h.eq]
    refine ⟨by rw [h.out]; simpa using hx.symm, ?_⟩
    change Removable 1 m.array.base o
    rw [h.base]
    rw [hf.outputs] at hl
    rcases hfl : p.cgpms.filter fun c => decide (o ∉ (cgpmI 0).outputs c) with _ | ⟨c, l⟩
    · rw [hfl] at hl; simp at hl
    · have hc : c ∈ p.cgpms.filter fun c => decide (o ∉ (cgpmI 0).outputs c) := by rw [hfl]; simp
      rw [List.mem_filter] at hc
      exact ⟨c, hc.1, by simpa using hc.2⟩
  obtain ⟨c', h1, h2, -⟩ := (removeLaw Z 2).ok v o hr hrem
  rw [ho] at h1
  cases h1
  exact ⟨h2.reg, fun r x hx => by rw [h2.cell, if_pos hx], h2.present⟩

theorem remove_views {Z : List Var} {outs : List Var} {v v' : View} {m : FlexMix (Cgpm 1)}
    {p : Product (Cgpm 0)} (h : Flat v m p) (ho : outs.foldlM (removeCgpm 2) v = .ok v') :
    (∀ o ∈ outs, o ≠ m.indexer) ∧ ∃ m' p', Flat v' m' p' ∧ m'.indexer = m.indexer ∧
      p'.cgpms.flatMap (cgpmI 0).outputs =
        (p.cgpms.flatMap (cgpmI 0).outputs).filter (fun x => decide (x ∉ outs)) ∧
      ((cgpmTab Z 2).Reg v → 1 < ((cgpmI 2).outputs v').length →
        (cgpmTab Z 2).Reg v' ∧ (∀ r, ∀ x ∈ (cgpmI 2).outputs v',
          (cgpmTab Z 2).cell v' r x = (cgpmTab Z 2).cell v r x) ∧
          ∀ r, (cgpmTab Z 2).present v' r ↔ (cgpmTab Z 2).present v r) := by
  induction outs generalizing v m p with
  | nil =>
    cases ho
    exact ⟨by simp, m, p, h, rfl, by simp, fun hr _ => ⟨hr, fun _ _ _ => rfl, fun _ => Iff.rfl⟩⟩
  | cons o outs ih =>
    rw [List.foldlM_cons] at ho
    rcases h1 : removeCgpm 2 v o with e | v1
    · rw [h1] at ho; cases ho
    rw [h1] at ho
    obtain ⟨hx, m1, hf, hi⟩ := remove_flat h h1
    obtain ⟨a1, m', p', a2, a3, a4, a5⟩ := ih hf ho
    rw [hi] at a1 a3
    have e : p'.cgpms.flatMap (cgpmI 0).outputs =
        (p.cgpms.flatMap (cgpmI 0).outputs).filter (fun x => decide (x ∉ o :: outs)) := by
      rw [a4, flat_filter h.single, List.filter_filter]
      apply List.filter_congr
      intro x _
      by_cases h1 : x ∈ outs <;> by_cases h2 : x = o <;> simp [h1, h2]
    refine ⟨?_, m', p', a2, a3, e, fun hr hl => ?_⟩
    · intro o' ho'
      rcases List.mem_cons.1 ho' with rfl | ho'
      · exact hx
      · exact a1 o' ho'
    · have hsub : ∀ x ∈ (cgpmI 2).outputs v', x ∈ (cgpmI 2).outputs v1 := by
        intro x hxv
        rw [a2.outputs, a3, a4] at hxv
        rw [hf.outputs, hi]
        rcases List.mem_cons.1 hxv with rfl | hxv
        · exact List.mem_cons_self
        · exact List.mem_cons_of_mem _ (List.mem_of_mem_filter hxv)
      have hl1 : 1 < ((cgpmI 2).outputs v1).length := by
        rw [a2.outputs, a4, List.length_cons] at hl
        rw [hf.outputs, List.length_cons]
        have := List.length_filter_le (fun x => decide (x ∉ outs))
          ((p.cgpms.filter fun c => decide (o ∉ (cgpmI 0).outputs c)).flatMap (cgpmI 0).outputs)
        dsimp only at hl ⊢
        omega
      obtain ⟨b1, b2, b3⟩ := remove_edit h hr h1 hl1
      obtain ⟨c1, c2, c3⟩ := a5 b1 hl
      exact ⟨c1, fun r x hx => (c2 r x hx).trans (b2 r x (hsub x hx)), fun r => (c3 r).trans (b3 r)⟩

end Cgpm2.Views
