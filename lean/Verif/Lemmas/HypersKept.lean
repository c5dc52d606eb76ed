import Verif.Lemmas.ScoreForm

/-!
# Observing and unobserving keep the hyperparameters, and use no random numbers (helpers)
-/

namespace Cgpm2
open Spec

/-! ## A predicate of the state that a method keeps -/

/-- `m` keeps the predicate. -/
def Py.Stays {S T α : Type} (P : S → Prop) (m : Py (S × T) α) : Prop := ∀ s g, P s → P (m (s, g)).2.1

namespace Py.Stays
variable {S A T α β : Type} {P : S → Prop}

theorem pure (a : α) : Stays (T := T) P (Pure.pure a : Py (S × T) α) := fun _ _ h => h
theorem throw (e : Err) : Stays (α := α) (T := T) P (Py.throw e) := fun _ _ h => h
theorem lift (x : Except Err α) : Stays (T := T) P (Py.lift x) := fun _ _ h => h

theorem bind {m : Py (S × T) α} {f : α → Py (S × T) β} (hm : Stays P m) (hf : ∀ a, Stays P (f a)) :
    Stays P (m >>= f) := by
  intro s g h
  have h1 := hm s g h
  rw [Py.bind_apply]
  rcases hx : m (s, g) with ⟨_ | a, s1, g1⟩ <;> rw [hx] at h1
  · exact h1
  · exact hf a s1 g1 h1

theorem get {f : S × T → Py (S × T) α} (h : ∀ s g, P s → P (f (s, g) (s, g)).2.1) : Stays P (Py.get >>= f) := h

theorem each {m : Py (S × T) α} (hm : Stays P m) : Stays (fun l : List S => ∀ s ∈ l, P s) (Py.each m) := by
  intro l
  induction l with
  | nil => exact fun _ _ => fun s hs => absurd hs (by change s ∉ []; simp)
  | cons s l ih =>
    intro g h
    have h1 := hm s g (h s (by simp))
    rw [Py.each_cons]
    rcases hx : m (s, g) with ⟨_ | a, s1, g1⟩ <;> rw [hx] at h1
    · intro t ht
      rcases List.mem_cons.1 ht with rfl | ht
      · exact h1
      · exact h t (by simp [ht])
    · have h2 := ih g1 fun t ht => h t (by simp [ht])
      dsimp only
      rcases hy : Py.each m (l, g1) with ⟨_ | b, l1, g2⟩ <;> rw [hy] at h2
      all_goals
        intro t ht
        rcases List.mem_cons.1 ht with rfl | ht
        · exact h1
        · exact h2 t ht

theorem catchAll {m : Py (S × T) α} (hm : Stays P m) (a : α) : Stays P (Py.catchAll m a) := by
  intro s g h
  have h1 := hm s g h
  unfold Py.catchAll
  rcases hx : m (s, g) with ⟨_ | a, s1, g1⟩ <;> rw [hx] at h1 <;> exact h1

end Py.Stays

/-- On objects with the predicate, `m` draws nothing and keeps it. -/
def Py.Calm {S T α : Type} (P : S → Prop) (m : Py (S × T) α) : Prop := ∀ s g g', P s →
  (m (s, g)).1 = (m (s, g')).1 ∧ (m (s, g)).2.1 = (m (s, g')).2.1 ∧ (m (s, g)).2.2 = g ∧ P (m (s, g)).2.1

namespace Py.Calm
variable {S A T α β : Type} {P : S → Prop}

theorem pure (a : α) : Calm (T := T) P (Pure.pure a : Py (S × T) α) := fun _ _ _ h => ⟨rfl, rfl, rfl, h⟩
theorem lift (x : Except Err α) : Calm (T := T) P (Py.lift x) := fun _ _ _ h => ⟨rfl, rfl, rfl, h⟩

theorem bind {m : Py (S × T) α} {f : α → Py (S × T) β} (hm : Calm P m) (hf : ∀ a, Calm P (f a)) :
    Calm P (m >>= f) := by
  intro s g g' h
  obtain ⟨h1, h2, h3, h4⟩ := hm s g g' h
  obtain ⟨_, _, h3', _⟩ := hm s g' g h
  rw [Py.bind_apply, Py.bind_apply]
  rcases hx : m (s, g) with ⟨_ | a, s1, g1⟩ <;> rcases hy : m (s, g') with ⟨_ | b, s2, g2⟩ <;>
    rw [hx] at h1 h2 h3 h4 <;> rw [hy] at h1 h2 h3' <;> simp only at h1 h2 h3 h3' h4
  · exact ⟨by simp_all, by simp_all, h3, h4⟩
  · cases h1
  · cases h1
  · cases h1
    subst h2 h3 h3'
    exact hf a s1 g1 g2 h4

end Py.Calm

/-! ## Primitives -/

/-- The primitive is like one in the list. -/
def Like (l : List Prim) (p : Prim) : Prop := p.Good ∧ ∃ b ∈ l, SameModel b p

theorem Like.of {l : List Prim} {p q : Prim} (h : Like l p) (hg : q.Good) (hq : SameModel p q) : Like l q := by
  obtain ⟨-, b, hb, h⟩ := h
  exact ⟨hg, b, hb, h.trans hq⟩

theorem Like.observe {l : List Prim} {p : Prim} (h : Like l p) (r o i) : Like l (p.observe r o i).2 :=
  h.of ((cgpmLaws 0).inv_observe h.1 r o i (fun _ => ⟨0, 0⟩)) (sameModel_observe h.1 r o i)

theorem Like.unobserve {l : List Prim} {p : Prim} (h : Like l p) (r) : Like l (p.unobserve r).2 :=
  h.of ((cgpmLaws 0).inv_unobserve h.1 r (fun _ => ⟨0, 0⟩)) (sameModel_unobserve h.1 r)

theorem like_E {l : List Prim} {p q : Prim} (h : Like l p) (hE : primSem.E p q) : Like l q := by
  refine h.of hE.2.1 ((sameModel_clear p).trans ?_)
  rw [hE.2.2]
  exact (sameModel_clear q).symm

theorem stays_prim_observe (l : List Prim) (r o i) : Py.Stays (Like l) ((cgpmI 0).observe r o i) :=
  fun _ _ h => h.observe r o i

theorem stays_prim_unobserve (l : List Prim) (r) : Py.Stays (Like l) ((cgpmI 0).unobserve r) :=
  fun _ _ h => h.unobserve r

theorem noDraw_prim_observe (r o i) : Py.NoDraw ((cgpmI 0).observe r o i) := fun _ _ _ => ⟨rfl, rfl, rfl⟩

/-! ## Products of primitives -/

/-- A product whose primitives are like ones in the list. -/
def KeptProduct (l : List Prim) (c : Cgpm 1) : Prop :=
  ∃ p : Product (Cgpm 0), c = (.product p : Node (Cgpm 0)) ∧ ∀ b ∈ p.cgpms, Like l b

theorem stays_product {α : Type} {P : Cgpm 0 → Prop} {m : Py (Cgpm 0 × Rng) α} (hm : Py.Stays P m) :
    Py.Stays (fun p : Product (Cgpm 0) => ∀ b ∈ p.cgpms, P b) (Product.each m) :=
  fun p g h => hm.each p.cgpms g h

theorem stays_product_observe (l : List Prim) (r o i) : Py.Stays (KeptProduct l) ((cgpmI 1).observe r o i) := by
  rintro c g ⟨p, rfl, h⟩
  refine ⟨(Product.observe (cgpmI 0) r o i (p, g)).2.1, rfl, ?_⟩
  refine Py.Stays.bind (stays_product (P := Like l) ?_) (fun _ => Py.Stays.pure _) p g h
  refine Py.Stays.get fun s g h => ?_
  dsimp only
  split
  · exact stays_prim_observe l _ _ _ s g h
  · exact h

theorem stays_product_unobserve (l : List Prim) (r) : Py.Stays (KeptProduct l) ((cgpmI 1).unobserve r) := by
  rintro c g ⟨p, rfl, h⟩
  refine ⟨(Product.unobserve (cgpmI 0) r (p, g)).2.1, rfl, ?_⟩
  refine Py.Stays.bind (stays_product (P := Like l) ?_) (fun _ => ?_) p g h
  · exact (stays_prim_unobserve l r).catchAll _
  · split
    · exact Py.Stays.throw _
    · exact Py.Stays.pure _

theorem noDraw_product_observe (r o i) (p : Product (Cgpm 0)) (g g' : Rng) :
    ((cgpmI 1).observe r o i ((.product p : Node (Cgpm 0)), g)).1 =
      ((cgpmI 1).observe r o i ((.product p : Node (Cgpm 0)), g')).1 ∧
    ((cgpmI 1).observe r o i ((.product p : Node (Cgpm 0)), g)).2.1 =
      ((cgpmI 1).observe r o i ((.product p : Node (Cgpm 0)), g')).2.1 ∧
    ((cgpmI 1).observe r o i ((.product p : Node (Cgpm 0)), g)).2.2 = g := by
  have h : Py.NoDraw (Product.observe (cgpmI 0) r o i) := by
    refine Py.NoDraw.bind (noDraw_product ?_) fun _ => Py.NoDraw.pure _
    refine Py.NoDraw.get fun s g g' => ?_
    dsimp only
    split
    · exact noDraw_prim_observe _ _ _ s g g'
    · exact ⟨rfl, rfl, rfl⟩
  obtain ⟨h1, h2, h3⟩ := h p g g'
  exact ⟨h1, congrArg (fun x => (Node.product x : Node (Cgpm 0))) h2, h3⟩

theorem keptProduct_strip {l : List Prim} {c : Cgpm 1} (h : KeptProduct l c) : KeptProduct l ((cgpmSem 1).strip c) := by
  obtain ⟨p, rfl, h⟩ := h
  refine ⟨⟨p.cgpms.map Prim.clearParams⟩, rfl, fun b hb => ?_⟩
  obtain ⟨b0, hb0, rfl⟩ := List.mem_map.1 hb
  exact (h b0 hb0).of ((cgpmLaws 0).inv_strip (h b0 hb0).1) (sameModel_clear b0)

theorem mem_of_forall₂ {α β : Type} {R : α → β → Prop} {l : List α} {l' : List β} (h : List.Forall₂ R l l') {b : β}
    (hb : b ∈ l') : ∃ a ∈ l, R a b := by
  induction h with
  | nil => cases hb
  | cons h1 _ ih =>
    rcases List.mem_cons.1 hb with rfl | hb
    · exact ⟨_, List.mem_cons_self, h1⟩
    · obtain ⟨a, ha, hab⟩ := ih hb
      exact ⟨a, List.mem_cons_of_mem _ ha, hab⟩

theorem keptProduct_E {l : List Prim} {c d : Cgpm 1} (h : KeptProduct l c) (hE : (cgpmSem 1).E c d) :
    KeptProduct l d := by
  obtain ⟨p, rfl, h⟩ := h
  rcases d with d | d | d | d | d | d
  · exact hE.elim
  · refine ⟨d, rfl, fun b hb => ?_⟩
    have hE : List.Forall₂ primSem.E p.cgpms d.cgpms := hE.1
    obtain ⟨a, ha, hab⟩ := mem_of_forall₂ hE hb
    exact like_E (h a ha) hab
  all_goals exact hE.elim

/-! ## Arrays of products -/

def KeptArray (l : List Prim) (a : FlexArray (Cgpm 1)) : Prop :=
  ((cgpmSem 1).Inv a.base ∧ KeptProduct l a.base) ∧ ∀ c ∈ Dict.values a.cgpms, KeptProduct l c

theorem mem_values_set {K V : Type} [DecidableEq K] {d : Dict K V} {k : K} {x y : V}
    (h : y ∈ Dict.values (Dict.set d k x)) : y = x ∨ y ∈ Dict.values d := by
  induction d with
  | nil => exact .inl (by simpa [Dict.set, Dict.values] using h)
  | cons kv d ih =>
    unfold Dict.set at h
    split at h
    · rcases List.mem_cons.1 h with h | h
      · exact .inl h
      · exact .inr (List.mem_cons_of_mem _ h)
    · rcases List.mem_cons.1 h with h | h
      · exact .inr (h ▸ List.mem_cons_self)
      · exact (ih h).imp id (List.mem_cons_of_mem _)

theorem stays_onCgpm {l : List Prim} {α : Type} {m : Py (Cgpm 1 × Rng) α} (hm : Py.Stays (KeptProduct l) m) (i : Val) :
    Py.Stays (KeptArray l) (FlexArray.onCgpm (cgpmI 1) i m) := by
  intro a g h
  have hset : ∀ c, KeptProduct l c → KeptArray l { a with cgpms := Dict.set a.cgpms i c } := by
    intro c hc
    refine ⟨h.1, fun d hd => ?_⟩
    rcases mem_values_set hd with rfl | hd
    · exact hc
    · exact h.2 d hd
  unfold FlexArray.onCgpm
  dsimp only
  rcases hc : Dict.get? a.cgpms i with _ | c
  · dsimp only
    rw [(cgpmLaws 1).clone _ h.1.1]
    exact hset _ (hm _ g (keptProduct_strip h.1.2))
  · exact hset _ (hm c g (h.2 c (List.mem_map.2 ⟨_, Dict.mem_of_get? hc, rfl⟩)))

theorem stays_array_observe (l : List Prim) (r o i) :
    Py.Stays (KeptArray l) ((flexArrayI (cgpmI 1)).observe r o i) := by
  refine Py.Stays.get fun a g h => ?_
  refine Py.Stays.bind (Py.Stays.lift _) (fun _ => Py.Stays.bind (stays_onCgpm (stays_product_observe l _ _ _) _)
    fun _ => ?_) a g h
  exact fun _ _ h => h

theorem calm_array_observe (l : List Prim) (r o i) :
    Py.Calm (KeptArray l) ((flexArrayI (cgpmI 1)).observe r o i) := by
  intro a g g' h
  refine (Py.Calm.bind (Py.Calm.lift _) fun k => Py.Calm.bind ?_ fun _ => ?_ :
    Py.Calm (KeptArray l) (do
      let (j, inputs) ← Py.lift (popItem i a.indexer)
      FlexArray.onCgpm (cgpmI 1) j ((cgpmI 1).observe r o inputs)
      Py.modify fun st => ({ st.1 with rowidToIndex := Dict.set st.1.rowidToIndex r j }, st.2))) a g g' h
  · intro a g g' h
    have hst := stays_onCgpm (stays_product_observe l r o k.2) k.1 a g h
    refine ⟨?_, ?_, ?_, hst⟩ <;> unfold FlexArray.onCgpm <;> dsimp only <;>
      rcases hc : Dict.get? a.cgpms k.1 with _ | c <;> dsimp only
    · rw [(cgpmLaws 1).clone _ h.1.1]
      obtain ⟨q, hq, -⟩ := keptProduct_strip h.1.2
      rw [hq]
      exact (noDraw_product_observe r o k.2 q g g').1
    · obtain ⟨q, rfl, -⟩ := h.2 c (List.mem_map.2 ⟨_, Dict.mem_of_get? hc, rfl⟩)
      exact (noDraw_product_observe r o k.2 q g g').1
    · rw [(cgpmLaws 1).clone _ h.1.1]
      obtain ⟨q, hq, -⟩ := keptProduct_strip h.1.2
      rw [hq]
      dsimp only
      rw [(noDraw_product_observe r o k.2 q g g').2.1]
    · obtain ⟨q, rfl, -⟩ := h.2 c (List.mem_map.2 ⟨_, Dict.mem_of_get? hc, rfl⟩)
      rw [(noDraw_product_observe r o k.2 q g g').2.1]
    · rw [(cgpmLaws 1).clone _ h.1.1]
      obtain ⟨q, hq, -⟩ := keptProduct_strip h.1.2
      rw [hq]
      exact (noDraw_product_observe r o k.2 q g g').2.2
    · obtain ⟨q, rfl, -⟩ := h.2 c (List.mem_map.2 ⟨_, Dict.mem_of_get? hc, rfl⟩)
      exact (noDraw_product_observe r o k.2 q g g').2.2
  · exact fun _ _ _ h => ⟨rfl, rfl, rfl, h⟩

theorem stays_array_unobserve (l : List Prim) (r) :
    Py.Stays (KeptArray l) ((flexArrayI (cgpmI 1)).unobserve r) := by
  refine Py.Stays.get fun a g h => ?_
  refine Py.Stays.bind (Py.Stays.lift _) (fun _ => Py.Stays.bind ?_
    fun _ => stays_onCgpm (stays_product_unobserve l _) _) a g h
  exact fun _ _ h => h

/-! ## Views -/

namespace Views
open Cpp

/-- A view whose primitives are like ones in the list. -/
def KeptView (l : List Prim) (v : View) : Prop :=
  ∃ m : FlexMix (Cgpm 1), v = (.flexMix m : Node (Cgpm 1)) ∧ Like l m.rowDivide ∧ KeptArray l m.array

def KeptMix (l : List Prim) (m : FlexMix (Cgpm 1)) : Prop := Like l m.rowDivide ∧ KeptArray l m.array

theorem stays_onDivide {l : List Prim} {α : Type} {m : Py Prim α} (hm : ∀ p, Like l p → Like l (m p).2) :
    Py.Stays (KeptMix l) (RowMix.onDivide m) := fun s _ h => ⟨hm s.rowDivide h.1, h.2⟩

theorem stays_onArray {l : List Prim} {α : Type} {m : Py (FlexArray (Cgpm 1) × Rng) α} (hm : Py.Stays (KeptArray l) m) :
    Py.Stays (KeptMix l) (RowMix.onArray m) := fun s g h => ⟨h.1, hm s.array g h.2⟩

theorem stays_view_observe (l : List Prim) (r o i) : Py.Stays (KeptView l) ((cgpmI 2).observe r o i) := by
  rintro v g ⟨m, rfl, h⟩
  refine ⟨(RowMix.observe (flexArrayI (cgpmI 1)) r o i (m, g)).2.1, rfl, ?_⟩
  refine (Py.Stays.get fun m g (h : KeptMix l m) => ?_ : Py.Stays (KeptMix l) (RowMix.observe (flexArrayI (cgpmI 1)) r o i)) m g h
  dsimp only
  rcases hr : Dict.get? m.rowidToComponent r with _ | z
  · rcases hz : Dict.get? o m.indexer with _ | z
    · exact Py.Stays.bind (fun _ _ h => h) (fun _ => Py.Stays.bind (Py.Stays.lift _) fun _ =>
        Py.Stays.bind (stays_onDivide fun p hp => hp.observe _ _ _) fun _ =>
        Py.Stays.bind (Py.Stays.lift _) fun _ => Py.Stays.bind (fun _ _ h => h) fun _ =>
        stays_onArray (stays_array_observe l _ _ _)) m g h
    · exact Py.Stays.bind (stays_onDivide fun p hp => hp.observe _ _ _) (fun _ =>
        Py.Stays.bind (Py.Stays.lift _) fun _ => Py.Stays.bind (fun _ _ h => h) fun _ =>
        stays_onArray (stays_array_observe l _ _ _)) m g h
  · exact stays_onArray (stays_array_observe l _ _ _) m g h

theorem stays_view_unobserve (l : List Prim) (r) : Py.Stays (KeptView l) ((cgpmI 2).unobserve r) := by
  rintro v g ⟨m, rfl, h⟩
  refine ⟨(RowMix.unobserve (flexArrayI (cgpmI 1)) r (m, g)).2.1, rfl, ?_⟩
  refine (?_ : Py.Stays (KeptMix l) (RowMix.unobserve (flexArrayI (cgpmI 1)) r)) m g h
  refine Py.Stays.bind (stays_onDivide fun p hp => hp.unobserve _) fun _ =>
    Py.Stays.bind (stays_onArray (stays_array_unobserve l _)) fun _ => Py.Stays.get fun m g h => ?_
  exact Py.Stays.bind (Py.Stays.lift _) (fun _ => Py.Stays.bind (fun _ _ h => h) fun _ => Py.Stays.pure _) m g h

theorem kept_E {l : List Prim} {v w : View} (h : KeptView l v) (hE : (cgpmSem 2).E v w) : KeptView l w := by
  obtain ⟨m, rfl, h1, h2⟩ := h
  rcases w with n | n | n | n | n | n
  all_goals try exact hE.elim
  obtain ⟨⟨e1, e2, -⟩, -⟩ := hE
  refine ⟨n, rfl, like_E h1 e1, ⟨(cgpmLaws 1).inv' e2.1, keptProduct_E h2.1.2 e2.1⟩, fun c hc => ?_⟩
  obtain ⟨⟨z, c'⟩, hz, rfl⟩ := List.mem_map.1 hc
  have hn : (Dict.keys n.array.cgpms).Nodup := e2.2.2.2.2.2.2.2.1
  have h3 := e2.2.2.2.1 z
  unfold FlexArray.comp at h3
  rw [Dict.get?_of_mem hn hz] at h3
  refine keptProduct_E ?_ h3
  rcases hg : Dict.get? m.array.cgpms z with _ | c
  · exact keptProduct_strip h2.1.2
  · exact h2.2 c (List.mem_map.2 ⟨_, Dict.mem_of_get? hg, rfl⟩)

theorem calm_onArray {l : List Prim} {α : Type} {m : Py (FlexArray (Cgpm 1) × Rng) α} (hm : Py.Calm (KeptArray l) m) :
    Py.Calm (KeptMix l) (RowMix.onArray m) := fun s g g' h => by
  obtain ⟨h1, h2, h3, h4⟩ := hm s.array g g' h.2
  refine ⟨h1, ?_, h3, h.1, h4⟩
  change ({ s with array := _ } : FlexMix (Cgpm 1)) = { s with array := _ }
  rw [h2]

/-- Observing a row in a given cluster draws nothing. -/
theorem noDraw_view_observe {m : FlexMix (Cgpm 1)} {r : RowId}
    {o i : Dict Var Val} {z : Val} (hz : Dict.get? o m.indexer = some z) {l : List Prim} (hk : KeptMix l m)
    (g g' : Rng) :
    ((cgpmI 2).observe r o i ((.flexMix m : Node (Cgpm 1)), g)).1 =
      ((cgpmI 2).observe r o i ((.flexMix m : Node (Cgpm 1)), g')).1 ∧
    ((cgpmI 2).observe r o i ((.flexMix m : Node (Cgpm 1)), g)).2.1 =
      ((cgpmI 2).observe r o i ((.flexMix m : Node (Cgpm 1)), g')).2.1 ∧
    ((cgpmI 2).observe r o i ((.flexMix m : Node (Cgpm 1)), g)).2.2 = g := by
  have key : (RowMix.observe (flexArrayI (cgpmI 1)) r o i (m, g)).1 = (RowMix.observe (flexArrayI (cgpmI 1)) r o i (m, g')).1 ∧
      (RowMix.observe (flexArrayI (cgpmI 1)) r o i (m, g)).2.1 = (RowMix.observe (flexArrayI (cgpmI 1)) r o i (m, g')).2.1 ∧
      (RowMix.observe (flexArrayI (cgpmI 1)) r o i (m, g)).2.2 = g := by
    unfold RowMix.observe
    rw [Py.get_bind, Py.get_bind]
    dsimp only
    rcases hr : Dict.get? m.rowidToComponent r with _ | z'
    · rw [hz]
      dsimp only
      have := (Py.Calm.bind (P := KeptMix l) (m := RowMix.onDivide (Prim.observe r [(m.indexer, z)] (getIntersection m.inputsZ i)))
        (fun s g g' h => ⟨rfl, rfl, rfl, h.1.observe _ _ _, h.2⟩) fun _ => Py.Calm.bind (Py.Calm.lift (Dict.getItem [(m.indexer, z)] m.indexer))
        fun k => Py.Calm.bind (m := Py.modify fun st : FlexMix (Cgpm 1) × Rng =>
          ({ st.1 with rowidToComponent := Dict.set st.1.rowidToComponent r k }, st.2)) (fun _ _ _ h => ⟨rfl, rfl, rfl, h⟩)
        fun _ => calm_onArray (calm_array_observe l r (getIntersection (m.outputsX (flexArrayI (cgpmI 1))) o)
          (merged (getIntersection (m.inputsX (flexArrayI (cgpmI 1))) i) [(m.indexer, z)]))) m g g' hk
      exact ⟨this.1, this.2.1, this.2.2.1⟩
    · dsimp only
      have := calm_onArray (calm_array_observe l r (getIntersection (m.outputsX (flexArrayI (cgpmI 1))) o)
          (merged (getIntersection (m.inputsX (flexArrayI (cgpmI 1))) i) [(m.indexer, z')])) m g g' hk
      exact ⟨this.1, this.2.1, this.2.2.1⟩
  exact ⟨key.1, congrArg (fun x => (Node.flexMix x : Node (Cgpm 1))) key.2.1, key.2.2⟩

end Views

end Cgpm2
