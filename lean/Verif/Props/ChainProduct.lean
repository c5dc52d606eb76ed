import Verif.Props.Chain
import Verif.Props.Composite
import Verif.Lemmas.Entropy
import Verif.Props.Density
import Verif.Spec.ChainProduct

/-!
# C122 A chain without parents and a product of the same members agree
-/

namespace Cgpm2

theorem member_logpdf_rng (r : RowId) (t c i : Dict Var Val) (s : Member) (g : Rng) :
    (memberI.logpdf r t c i (s, g)).2.2 = g := by
  cases s with
  | tower n s => exact ((cgpmLaws n).logpdf_noDraw r t c i s g g).2.2
  | linreg m => rfl
  | forest m => rfl

namespace ChainProduct
open Spec

theorem filter_set_of {p : Var → Bool} {d : Dict Var Val} {k : Var} {v : Val} (h : p k = true) :
    (Dict.set d k v).filter (fun kv => p kv.1) = Dict.set (d.filter (fun kv => p kv.1)) k v := by
  induction d with
  | nil => simp [Dict.set, h]
  | cons kv d ih =>
    obtain ⟨a, b⟩ := kv
    by_cases e : a = k
    · subst e
      simp [Dict.set, h]
    · by_cases ha : p a = true
      · simp [Dict.set, e, ha, ih]
      · simp [Dict.set, e, ha, ih]

theorem only_update_eq (X : List Var) (d s : Dict Var Val) :
    only X (Dict.update d s) = Dict.update (only X d) (only X s) := by
  induction s generalizing d with
  | nil => rfl
  | cons kv s ih =>
    rw [Dict.update_cons, ih]
    by_cases h : kv.1 ∈ X
    · have e : only X (kv :: s) = kv :: only X s := by simp [only, h]
      rw [e, Dict.update_cons]
      congr 1
      exact filter_set_of (p := fun v => decide (v ∈ X)) (decide_eq_true h)
    · have e : only X (kv :: s) = only X s := by simp [only, h]
      rw [e]
      congr 1
      exact Chain.filter_set_of_not (p := fun v => decide (v ∈ X)) (decide_eq_false h)

theorem only_nodup {X : List Var} {d : Dict Var Val} (h : (Dict.keys d).Nodup) :
    (Dict.keys (only X d)).Nodup :=
  (List.Sublist.map _ List.filter_sublist : (Dict.keys (only X d)).Sublist (Dict.keys d)).nodup h

theorem only_nil_iff {X : List Var} {d : Dict Var Val} : only X d = [] ↔ ∀ v ∈ X, v ∉ Dict.keys d := by
  unfold only
  rw [List.filter_eq_nil_iff]
  constructor
  · intro h v hv hk
    obtain ⟨kv, hkv, rfl⟩ := List.mem_map.1 hk
    exact h kv hkv (by simpa using hv)
  · intro h kv hkv hv
    exact h kv.1 (by simpa using hv) (List.mem_map.2 ⟨kv, hkv, rfl⟩)

theorem init_ok {cs : List Member} {p : Product Member} (hp : Product.init memberI cs = .ok p) :
    p = ⟨cs⟩ ∧ ∀ i ∈ cs.flatMap memberI.inputs, i ∉ cs.flatMap memberI.outputs := by
  unfold Product.init at hp
  rcases h : Product.validate memberI cs with e | u
  · rw [h] at hp; cases hp
  · rw [h] at hp
    cases hp
    refine ⟨rfl, ?_⟩
    unfold Product.validate at h
    dsimp only at h
    split at h
    · cases h
    · split at h
      · cases h
      · rename_i h'; exact not_not.1 h'

theorem supplied {ch : Chain Member} {p : Product Member} (hp : Product.init memberI ch.cgpms = .ok p)
    {row ins : Dict Var Val}
    (hs : ∀ b ∈ ch.cgpms, (∃ v ∈ memberI.outputs b, v ∈ Dict.keys row) →
      ∀ i ∈ memberI.inputs b, i ∈ Dict.keys ins) : Supplied memberI ch row ins :=
  fun b hb hv i hi => .inr ⟨hs b hb hv i hi, (init_ok hp).2 i (List.mem_flatMap.2 ⟨b, hb, hi⟩)⟩

theorem member_eq_block {b : Member} {r : RowId} {row ins : Dict Var Val} (hd' : (Dict.keys ins).Nodup)
    (hr : ∀ i ∈ memberI.inputs b, i ∉ Dict.keys row) (g : Rng) :
    memberLogpdf memberI r row ins g b = blockLogpdf memberI r row [] ins g b := by
  unfold memberLogpdf blockLogpdf
  have hmer : merged (only (memberI.inputs b) ins) [] = only (memberI.inputs b) ins :=
    Dict.update_nil_left _ (only_nodup hd')
  rw [only_nil_iff.2 hr, hmer]
  rfl

theorem inside_fst (n : Nat) (f : Py (Cgpm n × Rng) Fl) (s : Cgpm n) (g : Rng) :
    (Py.inside (Member.tower n) f (s, g)).1 = (f (s, g)).1 := rfl

theorem sub_cancel {z : Fl} (hz : z.IsLogP) (y : ℝ) : z + .fin y - .fin y = z := by
  cases z with
  | fin a =>
    change Fl.fin (a + y + -y) = _
    rw [add_neg_cancel_right]
  | ninf => rfl
  | nan => cases hz
  | pinf => cases hz

theorem sum_finite {α : Type} (l : List α) (y : α → Fl) (h : ∀ a ∈ l, ∃ x, y a = .fin x) :
    ∃ x, (l.map y).sum = .fin x := by
  induction l with
  | nil => exact ⟨0, rfl⟩
  | cons a l ih =>
    obtain ⟨u, hu⟩ := h a (by simp)
    obtain ⟨w, hw⟩ := ih fun b hb => h b (by simp [hb])
    refine ⟨u + w, ?_⟩
    rw [List.map_cons, List.sum_cons, hu, hw]
    rfl

theorem block_joint {b : Member} {r : RowId} {t c ins : Dict Var Val} (hdc : (Dict.keys c).Nodup)
    (hmer : merged t c = Dict.update t c) (h : OneSided b t c ∨ Conditions r t c b) {g : Rng} {z : Fl} {y : ℝ}
    (hz : blockLogpdf memberI r t c ins g b = .ok z) (hy : blockLogpdf memberI r c [] ins g b = .ok (.fin y)) :
    blockLogpdf memberI r (merged t c) [] ins g b = .ok (z + .fin y) := by
  have ho : only (memberI.outputs b) (merged t c) =
      Dict.update (only (memberI.outputs b) t) (only (memberI.outputs b) c) := by
    rw [hmer]; exact only_update_eq _ _ _
  by_cases h1 : only (memberI.outputs b) t = []
  · rw [h1, Dict.update_nil_left _ (only_nodup hdc)] at ho
    have e : blockLogpdf memberI r (merged t c) [] ins g b = blockLogpdf memberI r c [] ins g b := by
      unfold blockLogpdf; rw [ho]
    rw [e, hy]
    unfold blockLogpdf at hz
    rw [if_pos h1] at hz
    have hz0 : Fl.fin 0 = z := by injection hz
    rw [← hz0]
    exact congrArg Except.ok (zero_add (Fl.fin y)).symm
  by_cases h2 : only (memberI.outputs b) c = []
  · rw [h2, Dict.update_nil] at ho
    have e : blockLogpdf memberI r (merged t c) [] ins g b = blockLogpdf memberI r t c ins g b := by
      unfold blockLogpdf; rw [ho, h2]; rfl
    rw [e, hz]
    unfold blockLogpdf at hy
    rw [if_pos h2] at hy
    have hy0 : (0 : ℝ) = y := by injection hy with h; injection h
    rw [← hy0]
    exact congrArg Except.ok (add_zero z).symm
  rcases h with (h | h) | h
  · exact absurd (only_nil_iff.2 h) h1
  · exact absurd (only_nil_iff.2 h) h2
  cases b with
  | linreg m => exact h.elim
  | forest m => exact h.elim
  | tower n s =>
    obtain ⟨⟨Z, ht⟩, hh, hq⟩ := h
    have hi' : memberI.inputs (.tower n s) = [] := (cgpmTLaws Z n).inputs s (tidy_reg ht)
    have hq : Query n s (only (memberI.outputs (.tower n s)) t) (only (memberI.outputs (.tower n s)) c) := hq
    unfold blockLogpdf at hz hy ⊢
    rw [if_neg h1, hi', only_nil] at hz
    rw [if_neg h2, hi', only_nil] at hy
    rw [Dict.update_append_of_disjoint _ _ (only_nodup hdc) (fun k hk hk' =>
      (List.nodup_append.1 hq.nodup).2.2 k hk' k hk rfl)] at ho
    rw [ho, if_neg (by simp [h1]), hi', only_nil]
    obtain ⟨w, hw, e1, e2⟩ := Props.C25_conditional ht hh h1 h2 hq g (y := y)
      ((inside_fst _ _ _ _).symm.trans hy)
    have hz' : z = w - .fin y := by
      have := hz.symm.trans ((inside_fst _ _ _ _).trans e2)
      injection this
    refine ((inside_fst _ _ _ _).trans e1).trans ?_
    rw [hz']
    congr 1
    cases w with
    | fin a =>
      change _ = Fl.fin (a + -y + y)
      rw [neg_add_cancel_right]
    | ninf => rfl
    | nan => cases hw
    | pinf => cases hw

end ChainProduct

namespace Props
open Spec ChainProduct

/-- A chain and a product of the same members give a row the same log density, whatever the
accuracy of the chain: if the product can be made, so that no input of a member is an output of
another, the row has no value for an input, and the members with a variable in the row find their
inputs among the given ones. -/
theorem C122_logpdf {ch : Chain Member} {p : Product Member}
    (hp : Product.init memberI ch.cgpms = .ok p) (hn : NetworkOk memberI ch)
    (hm : ∀ b ∈ ch.cgpms, MemberOk b) (ha : 0 < ch.accuracy) {r : RowId} {row ins : Dict Var Val}
    (hd : (Dict.keys row).Nodup) (hd' : (Dict.keys ins).Nodup)
    (hr : ∀ b ∈ ch.cgpms, ∀ i ∈ memberI.inputs b, i ∉ Dict.keys row)
    (hs : ∀ b ∈ ch.cgpms, (∃ v ∈ memberI.outputs b, v ∈ Dict.keys row) →
      ∀ i ∈ memberI.inputs b, i ∈ Dict.keys ins)
    (g : Rng) (hl : ∀ b ∈ ch.cgpms, ∃ x : Fl, blockLogpdf memberI r row [] ins g b = .ok x ∧ x.IsLogP) :
    (Chain.logpdf memberI r row [] ins (ch, g)).1 = (Product.logpdf memberI r row [] ins (p, g)).1 := by
  obtain ⟨rfl, -⟩ := init_ok hp
  choose! x hx hxl using hl
  have h1 : ch.cgpms.mapM (memberLogpdf memberI r row ins g) = .ok (ch.cgpms.map x) :=
    mapM_ok _ _ _ fun b hb => (member_eq_block hd' (hr b hb) g).trans (hx b hb)
  have h2 : ch.cgpms.mapM (blockLogpdf memberI r row [] ins g) = .ok (ch.cgpms.map x) :=
    mapM_ok _ _ _ hx
  obtain ⟨ch', h⟩ := C67 hn hm ha hd (supplied hp hs) h1 (by
    intro y hy
    obtain ⟨b, hb, rfl⟩ := List.mem_map.1 hy
    exact hxl b hb)
  have hpr := C21_factorises memberI member_logpdf_rng ⟨ch.cgpms⟩ r row [] ins g
  rw [h]
  change _ = ((productI memberI).logpdf r row [] ins (⟨ch.cgpms⟩, g)).1
  rw [hpr, h2]
  rfl

/-- The same with constraints to which every member gives a finite log density, if every member has
variables only among the targets or only among the constraints, or is a model that conditions. -/
theorem C122_conditional {ch : Chain Member} {p : Product Member}
    (hp : Product.init memberI ch.cgpms = .ok p) (hn : NetworkOk memberI ch)
    (hm : ∀ b ∈ ch.cgpms, MemberOk b) (ha : 0 < ch.accuracy) {r : RowId} {t c ins : Dict Var Val}
    (hc : c ≠ []) (hdt : (Dict.keys t).Nodup) (hdc : (Dict.keys c).Nodup) (hd' : (Dict.keys ins).Nodup)
    (hr : ∀ b ∈ ch.cgpms, ∀ i ∈ memberI.inputs b, i ∉ Dict.keys t ∧ i ∉ Dict.keys c)
    (hs : ∀ b ∈ ch.cgpms, (∃ v ∈ memberI.outputs b, v ∈ Dict.keys t ∨ v ∈ Dict.keys c) →
      ∀ i ∈ memberI.inputs b, i ∈ Dict.keys ins)
    (hsep : ∀ b ∈ ch.cgpms, OneSided b t c ∨ Conditions r t c b)
    (g : Rng) (hl : ∀ b ∈ ch.cgpms, ∃ x : Fl, blockLogpdf memberI r t c ins g b = .ok x ∧ x.IsLogP)
    (hlc : ∀ b ∈ ch.cgpms, ∃ y : ℝ, blockLogpdf memberI r c [] ins g b = .ok (.fin y)) :
    (Chain.logpdf memberI r t c ins (ch, g)).1 = (Product.logpdf memberI r t c ins (p, g)).1 := by
  obtain ⟨rfl, -⟩ := init_ok hp
  have hmer : merged t c = Dict.update t c := by
    unfold merged; rw [Dict.update_nil_left t hdt]
  have hkeys : ∀ v, v ∈ Dict.keys (merged t c) ↔ v ∈ Dict.keys t ∨ v ∈ Dict.keys c := fun v => by
    rw [hmer]; exact mem_keys_update t c v
  choose! z hprod hzl using hl
  choose! y hy using hlc
  have hjoint : ∀ b ∈ ch.cgpms, memberLogpdf memberI r (merged t c) ins g b = .ok (z b + .fin (y b)) := by
    intro b hb
    rw [member_eq_block hd' (fun i hi h => by
      rcases (hkeys i).1 h with h | h
      · exact (hr b hb i hi).1 h
      · exact (hr b hb i hi).2 h) g]
    exact block_joint hdc hmer (hsep b hb) (hprod b hb) (hy b hb)
  have h1 := mapM_ok _ _ (fun b => z b + .fin (y b)) hjoint
  have h2 := mapM_ok _ _ (fun b => Fl.fin (y b)) fun b hb =>
    (member_eq_block hd' (fun i hi => (hr b hb i hi).2) g).trans (hy b hb)
  have h3 := mapM_ok _ _ z hprod
  obtain ⟨Y, hY⟩ := sum_finite ch.cgpms (fun b => Fl.fin (y b)) fun b _ => ⟨y b, rfl⟩
  have hZ : (ch.cgpms.map z).sum.IsLogP := Fl.isLogP_sum (by
    intro u hu
    obtain ⟨b, hb, rfl⟩ := List.mem_map.1 hu
    exact hzl b hb)
  obtain ⟨ch', out, h, -, hout⟩ := C67_conditional hn hm ha hc
    (supplied hp fun b hb ⟨v, hv, hk⟩ => hs b hb ⟨v, hv, (hkeys v).1 hk⟩)
    (supplied hp fun b hb ⟨v, hv, hk⟩ => hs b hb ⟨v, hv, .inr hk⟩) h1 h2
    (by
      intro u hu
      obtain ⟨b, hb, rfl⟩ := List.mem_map.1 hu
      have := hzl b hb
      revert this
      cases z b <;> exact fun h => h)
    (by
      intro u hu
      obtain ⟨b, hb, rfl⟩ := List.mem_map.1 hu
      trivial)
  have hpr := C21_factorises memberI member_logpdf_rng ⟨ch.cgpms⟩ r t c ins g
  rw [h, hout (by rw [Fl.sum_eq, hY]; simp)]
  change _ = ((productI memberI).logpdf r t c ins (⟨ch.cgpms⟩, g)).1
  rw [hpr, h3]
  change _ = Except.ok (Fl.sum (ch.cgpms.map z))
  rw [Fl.sum_eq, Fl.sum_eq, Fl.sum_eq, Fl.sum_zip _ z (fun b => Fl.fin (y b)) _ fun _ _ => rfl, hY,
    sub_cancel hZ]

/-- Observing and unobserving a row, whatever the members, has the same outcome and leaves the same
members and random state behind; the scores are the same. -/
theorem C122_updates {S : Type} (I : Iface S) (ch : Chain S) (r : RowId) (o i : Dict Var Val) (g : Rng) :
    ((Chain.observe I r o i (ch, g)).1 = (Product.observe I r o i (⟨ch.cgpms⟩, g)).1 ∧
      (Chain.observe I r o i (ch, g)).2.1.cgpms = (Product.observe I r o i (⟨ch.cgpms⟩, g)).2.1.cgpms ∧
      (Chain.observe I r o i (ch, g)).2.2 = (Product.observe I r o i (⟨ch.cgpms⟩, g)).2.2) ∧
    ((Chain.unobserve I r (ch, g)).1 = (Product.unobserve I r (⟨ch.cgpms⟩, g)).1 ∧
      (Chain.unobserve I r (ch, g)).2.1.cgpms = (Product.unobserve I r (⟨ch.cgpms⟩, g)).2.1.cgpms ∧
      (Chain.unobserve I r (ch, g)).2.2 = (Product.unobserve I r (⟨ch.cgpms⟩, g)).2.2) ∧
    Chain.logpdfScore I ch = Product.logpdfScore I ⟨ch.cgpms⟩ := by
  rw [observe_product, unobserve_product]
  exact ⟨⟨rfl, rfl, rfl⟩, ⟨rfl, rfl, rfl⟩, rfl⟩

/-! ### A variable with three values beside a regression whose inputs come from outside -/

end Props

namespace Concrete

noncomputable def sideMembers : List Member :=
  [.tower 0 (.categorical (Categorical.init [3] [] [] [] 3) : Prim), .linreg reg0]

noncomputable def sideChain : Chain Member := Chain.init sideMembers (some 5) ⟨[0, 1], fun _ _ => []⟩

def sideRow : Dict Var Val := [(3, .num 2), (7, .num (5/2))]
def sideIns : Dict Var Val := [(1, .num 2), (2, .num 1)]

theorem side_mem {b : Member} (hb : b ∈ sideChain.cgpms) :
    b = .tower 0 (.categorical (Categorical.init [3] [] [] [] 3) : Prim) ∨ b = .linreg reg0 := by
  have : b ∈ sideMembers := hb
  simpa [sideMembers] using this

theorem side_legally : Spec.LegallyReachable (.categorical (Categorical.init [3] [] [] [] 3)) :=
  ⟨_, [], .categorical .., by simp [Spec.LegalHypers, Categorical.init, Dict.get?], rfl⟩

theorem side_net : Spec.NetworkOk memberI sideChain where
  disjoint := by
    change ([3, 7] : List Var).Nodup
    decide
  all := by
    change ([0, 1] : List Nat).Perm [0, 1]
    exact .refl _
  order := by
    change List.Pairwise _ ([0, 1] : List Nat)
    refine List.pairwise_cons.2 ⟨fun k hk b c hb hc i hi => ?_, List.pairwise_singleton _ _⟩
    cases hb
    cases hi
  acyclic b hb i hi := by
    rcases side_mem hb with rfl | rfl
    · cases hi
    · have : i = 1 ∨ i = 2 := by simpa [memberI, reg0] using hi
      rcases this with rfl | rfl <;> simp [memberI, reg0]
  required ts cs v := by
    have hneed : ∀ v, Spec.Needed memberI sideChain.cgpms (ts ++ cs) v → v = 1 ∨ v = 2 := by
      intro v h
      cases h with
      | direct hb hv h hi =>
        rcases side_mem hb with rfl | rfl
        · cases hi
        · simpa [memberI, reg0] using hi
      | further hb hv h hi =>
        rcases side_mem hb with rfl | rfl
        · cases hi
        · simpa [memberI, reg0] using hi
    have hout : Chain.outputs memberI sideChain = [3, 7] := rfl
    rw [hout]
    change v ∈ ([] : List Var) ↔ _
    simp only [List.not_mem_nil, false_iff]
    rintro ⟨h1, h2, -⟩
    rcases hneed v h1 with rfl | rfl <;> simp at h2

theorem side_ok : ∀ b ∈ sideChain.cgpms, Spec.MemberOk b := by
  intro b hb
  rcases side_mem hb with rfl | rfl
  · exact .prim0 side_legally
  · trivial

theorem side_init : Product.init memberI sideChain.cgpms = .ok ⟨sideMembers⟩ := by
  simp [Product.init, Product.validate, sideChain, Chain.init, sideMembers, memberI, reg0, cgpmI, primI,
    Prim.outputs, Prim.inputs, Categorical.init]

theorem side_logpdf (g : Rng) : ∀ b ∈ sideChain.cgpms, ∃ x : Fl,
    Spec.blockLogpdf memberI (some 0) sideRow [] sideIns g b = .ok x ∧ x.IsLogP := by
  intro b hb
  rcases side_mem hb with rfl | rfl
  · obtain ⟨s, l, -, h⟩ := Props.C86_primitive side_legally rfl (o := 3) rfl (r := some 0) rfl (q := 2)
      ⟨2, show 2 < 3 by norm_num, by norm_num⟩ sideRow sideIns
    exact ⟨.fin l, (h g).1, trivial⟩
  · obtain ⟨s, l, -, h⟩ := Props.C86_regression reg0_history (by simp) (o := 7) rfl (r := some 0) rfl (5/2)
      (row := sideRow) (ins := sideIns) (by decide) (by decide) (by simp [sideRow, sideIns, Dict.keys])
      (by
        intro i hi
        have : i = 1 ∨ i = 2 := by simpa [reg0] using hi
        rcases this with rfl | rfl
        · change some (Val.num 2) ≠ _; simp
        · change some (Val.num 1) ≠ _; simp)
      (y := [.num 1, .num 2, .num 0, .num 1]) rfl
    exact ⟨.fin l, (h g).1, trivial⟩

end Concrete

namespace Props
open Spec

example (g : Rng) := C122_logpdf Concrete.side_init Concrete.side_net Concrete.side_ok (by decide)
  (r := some 0) (row := Concrete.sideRow) (ins := Concrete.sideIns) (by decide) (by decide)
  (by
    intro b hb i hi
    rcases Concrete.side_mem hb with rfl | rfl
    · cases hi
    · have : i = 1 ∨ i = 2 := by simpa [memberI, Concrete.reg0] using hi
      rcases this with rfl | rfl <;> simp [Concrete.sideRow, Dict.keys])
  (by
    intro b hb _ i hi
    rcases Concrete.side_mem hb with rfl | rfl
    · cases hi
    · have : i = 1 ∨ i = 2 := by simpa [memberI, Concrete.reg0] using hi
      rcases this with rfl | rfl <;> simp [Concrete.sideIns, Dict.keys])
  g (Concrete.side_logpdf g)

example (g : Rng) := C122_conditional Concrete.side_init Concrete.side_net Concrete.side_ok (by decide)
  (r := some 0) (t := [(7, .num (5/2))]) (c := [(3, .num 2)]) (ins := Concrete.sideIns) (by simp) (by decide)
  (by decide) (by decide)
  (by
    intro b hb i hi
    rcases Concrete.side_mem hb with rfl | rfl
    · cases hi
    · have : i = 1 ∨ i = 2 := by simpa [memberI, Concrete.reg0] using hi
      rcases this with rfl | rfl <;> simp [Dict.keys])
  (by
    intro b hb _ i hi
    rcases Concrete.side_mem hb with rfl | rfl
    · cases hi
    · have : i = 1 ∨ i = 2 := by simpa [memberI, Concrete.reg0] using hi
      rcases this with rfl | rfl <;> simp [Concrete.sideIns, Dict.keys])
  (by
    intro b hb
    rcases Concrete.side_mem hb with rfl | rfl
    · exact .inl <| .inl (by change ∀ v ∈ ([3] : List Var), _; simp [Dict.keys])
    · exact .inl <| .inr (by change ∀ v ∈ ([7] : List Var), _; simp [Dict.keys]))
  g
  (by
    intro b hb
    obtain ⟨x, hx, hl⟩ := Concrete.side_logpdf g b hb
    rcases Concrete.side_mem hb with rfl | rfl
    · exact ⟨.fin 0, rfl, trivial⟩
    · exact ⟨x, hx, hl⟩)
  (by
    intro b hb
    rcases Concrete.side_mem hb with rfl | rfl
    · obtain ⟨s, l, -, h⟩ := C86_primitive Concrete.side_legally rfl (o := 3) rfl (r := some 0) rfl (q := 2)
        ⟨2, show 2 < 3 by norm_num, by norm_num⟩ [(3, .num 2)] Concrete.sideIns
      exact ⟨l, (h g).1⟩
    · exact ⟨0, rfl⟩)

/-! A mixture that conditions, beside a variable with three values. -/

noncomputable def _root_.Cgpm2.Concrete.mixSide : List Member :=
  [.tower 2 (.finMix Concrete.finView : Node (Node Prim)),
    .tower 0 (.categorical (Categorical.init [8] [] [] [] 3) : Prim)]

noncomputable def _root_.Cgpm2.Concrete.mixSideChain : Chain Member :=
  Chain.init Concrete.mixSide (some 3) ⟨[1, 0], fun _ _ => []⟩

theorem _root_.Cgpm2.Concrete.mixSide_mem {b : Member} (hb : b ∈ Concrete.mixSideChain.cgpms) :
    b = .tower 2 (.finMix Concrete.finView : Node (Node Prim)) ∨
      b = .tower 0 (.categorical (Categorical.init [8] [] [] [] 3) : Prim) := by
  have : b ∈ Concrete.mixSide := hb
  simpa [Concrete.mixSide] using this

theorem _root_.Cgpm2.Concrete.mixSide_inputs {b : Member} (hb : b ∈ Concrete.mixSideChain.cgpms) :
    memberI.inputs b = [] := by
  rcases Concrete.mixSide_mem hb with rfl | rfl <;> rfl

theorem _root_.Cgpm2.Concrete.eight_legally : LegallyReachable (.categorical (Categorical.init [8] [] [] [] 3)) :=
  ⟨_, [], .categorical .., by simp [LegalHypers, Categorical.init, Dict.get?], rfl⟩

theorem _root_.Cgpm2.Concrete.mixSide_net : NetworkOk memberI Concrete.mixSideChain where
  disjoint := by
    change ([5, 3, 1, 8] : List Var).Nodup
    decide
  all := by
    change ([1, 0] : List Nat).Perm [0, 1]
    decide
  order := by
    change List.Pairwise _ ([1, 0] : List Nat)
    refine List.pairwise_cons.2 ⟨fun k hk b c hb hc i hi => ?_, List.pairwise_singleton _ _⟩
    cases hb
    cases hi
  acyclic b hb i hi := by
    rw [Concrete.mixSide_inputs hb] at hi
    cases hi
  required ts cs v := by
    change v ∈ ([] : List Var) ↔ _
    simp only [List.not_mem_nil, false_iff]
    rintro ⟨h, -⟩
    cases h with
    | direct hb hv h hi => rw [Concrete.mixSide_inputs hb] at hi; cases hi
    | further hb hv h hi => rw [Concrete.mixSide_inputs hb] at hi; cases hi

theorem _root_.Cgpm2.Concrete.mixSide_ok : ∀ b ∈ Concrete.mixSideChain.cgpms, MemberOk b := by
  intro b hb
  rcases Concrete.mixSide_mem hb with rfl | rfl
  · exact .finMix (n := 1) (cs := [(.product Concrete.block2 : Node Prim), .product Concrete.block2])
      Concrete.bern0_legally (.inr rfl) (by
        intro c hc
        have hc : c = (.product Concrete.block2 : Node Prim) := by
          rcases List.mem_cons.1 hc with h | h
          · exact h
          · exact List.mem_singleton.1 h
        subst hc
        exact Concrete.block2_built) rfl
  · exact .prim0 Concrete.eight_legally

theorem _root_.Cgpm2.Concrete.mixSide_init :
    Product.init memberI Concrete.mixSideChain.cgpms = .ok ⟨Concrete.mixSide⟩ := by
  unfold Product.init Product.validate
  have h1 : Concrete.mixSideChain.cgpms.flatMap memberI.outputs = [5, 3, 1, 8] := rfl
  have h2 : Concrete.mixSideChain.cgpms.flatMap memberI.inputs = [] := rfl
  rw [h1, h2]
  rfl

example (g : Rng) := C122_conditional Concrete.mixSide_init Concrete.mixSide_net Concrete.mixSide_ok (by decide)
  (r := none) (t := [(3, .num (1/2)), (8, .num 1)]) (c := [(5, .num 1), (1, .num 2)]) (ins := []) (by simp)
  (by decide) (by decide) (by decide)
  (fun b hb i hi => by rw [Concrete.mixSide_inputs hb] at hi; cases hi)
  (fun b hb _ i hi => by rw [Concrete.mixSide_inputs hb] at hi; cases hi)
  (by
    intro b hb
    rcases Concrete.mixSide_mem hb with rfl | rfl
    · exact .inr ⟨⟨_, Concrete.finView_tidy⟩, Concrete.finView_empty _, Concrete.finView_query⟩
    · exact .inl <| .inr (by change ∀ v ∈ ([8] : List Var), _; simp [Dict.keys]))
  g
  (by
    intro b hb
    rcases Concrete.mixSide_mem hb with rfl | rfl
    · obtain ⟨x, hx⟩ := C25_positive Concrete.finView_tidy (Concrete.finView_empty none)
        (t := [(3, .num (1/2))]) (cs := [(5, .num 1), (1, .num 2)]) (by simp) (by decide)
        (by change ∀ kv ∈ (_ : Dict Var Val), kv.1 ∈ [5, 3, 1]; simp)
        (fun kv hkv => Concrete.finView_plausible (by
          simp at hkv; simp [Concrete.query0]; tauto)) g
      exact ⟨.fin x, hx, trivial⟩
    · obtain ⟨s, l, -, h⟩ := C86_primitive Concrete.eight_legally rfl (o := 8) rfl (r := none) rfl (q := 1)
        ⟨1, show 1 < 3 by norm_num, by norm_num⟩ [(8, .num 1)] []
      exact ⟨.fin l, (h g).1, trivial⟩)
  (by
    intro b hb
    rcases Concrete.mixSide_mem hb with rfl | rfl
    · exact C25_positive Concrete.finView_tidy (Concrete.finView_empty none)
        (t := [(5, .num 1), (1, .num 2)]) (cs := []) (by simp) (by decide)
        (by change ∀ kv ∈ (_ : Dict Var Val), kv.1 ∈ [5, 3, 1]; simp)
        (fun kv hkv => Concrete.finView_plausible (by simp at hkv; simp [Concrete.query0, hkv])) g
    · exact ⟨0, rfl⟩)

/-- **C122 is violated** for a constraint with probability zero: the chain raises ValueError, the
product answers as if it had not been given. -/
theorem C122_zero_violated (g : Rng) :
    (Chain.logpdf memberI (some 0) [(7, .num (5/2))] [(3, .num 9)] Concrete.sideIns
      (Concrete.sideChain, g)).1 = .error .valueError ∧
    ∃ x : ℝ, (Product.logpdf memberI (some 0) [(7, .num (5/2))] [(3, .num 9)] Concrete.sideIns
      (⟨Concrete.sideMembers⟩, g)).1 = .ok (.fin x) := by
  obtain ⟨s', l, -, h'⟩ := C86_regression Concrete.reg0_history (by simp) (o := 7) rfl (r := some 0) rfl
    (5/2) (row := Concrete.sideRow) (ins := Concrete.sideIns) (by decide) (by decide)
    (by simp [Concrete.sideRow, Concrete.sideIns, Dict.keys])
    (by
      intro i hi
      have : i = 1 ∨ i = 2 := by simpa [Concrete.reg0] using hi
      rcases this with rfl | rfl
      · change some (Val.num 2) ≠ _; simp
      · change some (Val.num 1) ≠ _; simp)
    (y := [.num 1, .num 2, .num 0, .num 1]) rfl
  have hreg := (h' g).1
  have hsup : ∀ row : Dict Var Val, Supplied memberI Concrete.sideChain row Concrete.sideIns := fun row =>
    ChainProduct.supplied Concrete.side_init (by
      intro b hb _ i hi
      rcases Concrete.side_mem hb with rfl | rfl
      · cases hi
      · have : i = 1 ∨ i = 2 := by simpa [memberI, Concrete.reg0] using hi
        rcases this with rfl | rfl <;> simp [Concrete.sideIns, Dict.keys])
  have hcat : ∀ row : Dict Var Val, only [3] row = [(3, .num 9)] →
      memberLogpdf memberI (some 0) row Concrete.sideIns g
        (.tower 0 (.categorical (Categorical.init [3] [] [] [] 3) : Prim)) = .ok .ninf := by
    intro row hrow
    have ho : memberI.outputs (.tower 0 (.categorical (Categorical.init [3] [] [] [] 3) : Prim)) = [3] := rfl
    have hv : Categorical.valid 3 9 = false := by
      unfold Categorical.valid
      norm_num
    have hc : Categorical.logpdf (Categorical.init [3] [] [] [] 3) (some 0) [(3, .num 9)] [] [] =
        .ok .ninf := by
      have : Categorical.logpdf (Categorical.init [3] [] [] [] 3) (some 0) [(3, .num 9)] [] [] =
        if !(Categorical.valid 3 9) then .ok .ninf else
          Categorical.calcPredictiveLogp (truncate 9).toNat (Categorical.init [3] [] [] [] 3).counts
            (Categorical.init [3] [] [] [] 3).alpha := rfl
      rw [this, hv]
      rfl
    unfold memberLogpdf
    rw [ho, hrow, if_neg (by simp)]
    have hi : memberI.inputs (.tower 0 (.categorical (Categorical.init [3] [] [] [] 3) : Prim)) = [] := rfl
    rw [hi, only_nil, only_nil]
    exact hc
  constructor
  · have e1 := hcat (merged [(7, .num (5/2))] [(3, .num 9)]) rfl
    have e2 : memberLogpdf memberI (some 0) (merged [(7, .num (5/2))] [(3, .num 9)]) Concrete.sideIns g
        (.linreg Concrete.reg0) = .ok (.fin l) := hreg
    have e3 := hcat [(3, .num 9)] rfl
    have e4 : memberLogpdf memberI (some 0) [(3, .num 9)] Concrete.sideIns g
        (.linreg Concrete.reg0) = .ok (.fin 0) := rfl
    have h1 : Concrete.sideChain.cgpms.mapM (memberLogpdf memberI (some 0)
        (merged [(7, .num (5/2))] [(3, .num 9)]) Concrete.sideIns g) = .ok [.ninf, .fin l] := by
      change Concrete.sideMembers.mapM _ = _
      simp only [Concrete.sideMembers, List.mapM_cons, List.mapM_nil]
      rw [e1, e2]
      rfl
    have h2 : Concrete.sideChain.cgpms.mapM (memberLogpdf memberI (some 0)
        [(3, .num 9)] Concrete.sideIns g) = .ok [.ninf, .fin 0] := by
      change Concrete.sideMembers.mapM _ = _
      simp only [Concrete.sideMembers, List.mapM_cons, List.mapM_nil]
      rw [e3, e4]
      rfl
    obtain ⟨ch', out, h, h0, -⟩ := C67_conditional Concrete.side_net Concrete.side_ok (by decide)
      (r := some 0) (by simp) (hsup _) (hsup _) h1 h2 (by simp [Fl.IsLogP]) (by simp [Fl.IsLogP])
    rw [h]
    exact h0 rfl
  · refine ⟨0 + l, (C21_factorises memberI member_logpdf_rng ⟨Concrete.sideMembers⟩ _ _ _ _ g).trans ?_⟩
    have e1 : blockLogpdf memberI (some 0) [(7, .num (5/2))] [(3, .num 9)] Concrete.sideIns g
        (.tower 0 (.categorical (Categorical.init [3] [] [] [] 3) : Prim)) = .ok (.fin 0) := rfl
    have e2 : blockLogpdf memberI (some 0) [(7, .num (5/2))] [(3, .num 9)] Concrete.sideIns g
        (.linreg Concrete.reg0) = .ok (.fin l) := hreg
    simp only [Concrete.sideMembers, List.mapM_cons, List.mapM_nil]
    rw [e1, e2]
    change Except.ok (Fl.fin (0 + 0 + l)) = _
    rw [zero_add]

/-- **C122 is violated** when the row has a value for an input: the chain takes it as the input of the
regression, the product leaves it out and raises. -/
theorem C122_row_violated (g : Rng) :
    (∃ x, (Chain.logpdf memberI (some 0) ((1, .num 2) :: Concrete.sideRow) [] [(2, .num 1)]
      (Concrete.sideChain, g)).1 = .ok x) ∧
    ∃ e, (Product.logpdf memberI (some 0) ((1, .num 2) :: Concrete.sideRow) [] [(2, .num 1)]
      (⟨Concrete.sideMembers⟩, g)).1 = .error e := by
  have hsup : Supplied memberI Concrete.sideChain ((1, .num 2) :: Concrete.sideRow) [(2, .num 1)] := by
    intro b hb _ i hi
    rcases Concrete.side_mem hb with rfl | rfl
    · cases hi
    · have : i = 1 ∨ i = 2 := by simpa [memberI, Concrete.reg0] using hi
      rcases this with rfl | rfl
      · exact .inl (by simp [Dict.keys])
      · refine .inr ⟨by simp [Dict.keys], ?_⟩
        change (2 : Var) ∉ [3, 7]
        decide
  obtain ⟨s, l, -, h⟩ := C86_primitive Concrete.side_legally rfl (o := 3) rfl (r := some 0) rfl (q := 2)
    ⟨2, show 2 < 3 by norm_num, by norm_num⟩ ((1, .num 2) :: Concrete.sideRow) [(2, .num 1)]
  obtain ⟨s', l', -, h'⟩ := C86_regression Concrete.reg0_history (by simp) (o := 7) rfl (r := some 0) rfl
    (5/2) (row := (1, .num 2) :: Concrete.sideRow) (ins := [(2, .num 1)]) (by decide) (by decide)
    (by simp [Concrete.sideRow, Dict.keys])
    (by
      intro i hi
      have : i = 1 ∨ i = 2 := by simpa [Concrete.reg0] using hi
      rcases this with rfl | rfl
      · change some (Val.num 2) ≠ _; simp
      · change some (Val.num 1) ≠ _; simp)
    (y := [.num 1, .num 2, .num 0, .num 1]) rfl
  have hx : Concrete.sideMembers.mapM
      (memberLogpdf memberI (some 0) ((1, .num 2) :: Concrete.sideRow) [(2, .num 1)] g) =
        .ok [.fin l, .fin l'] := by
    have h1 := (h g).1
    have h2 := (h' g).1
    simp only [Concrete.sideMembers, List.mapM_cons, List.mapM_nil]
    have e1 : memberLogpdf memberI (some 0) ((1, .num 2) :: Concrete.sideRow) [(2, .num 1)] g
        (.tower 0 (.categorical (Categorical.init [3] [] [] [] 3) : Prim)) = .ok (.fin l) := h1
    have e2 : memberLogpdf memberI (some 0) ((1, .num 2) :: Concrete.sideRow) [(2, .num 1)] g
        (.linreg Concrete.reg0) = .ok (.fin l') := h2
    rw [e1, e2]
    rfl
  constructor
  · obtain ⟨ch', h⟩ := C67 Concrete.side_net Concrete.side_ok (by decide) (r := some 0) (by decide) hsup
      (g := g) hx (by simp [Fl.IsLogP])
    exact ⟨_, congrArg Prod.fst h⟩
  · have h1 := (h g).1
    have e1 : blockLogpdf memberI (some 0) ((1, .num 2) :: Concrete.sideRow) [] [(2, .num 1)] g
        (.tower 0 (.categorical (Categorical.init [3] [] [] [] 3) : Prim)) = .ok (.fin l) := h1
    have e2 : ∃ e, blockLogpdf memberI (some 0) ((1, .num 2) :: Concrete.sideRow) [] [(2, .num 1)] g
        (.linreg Concrete.reg0) = .error e := ⟨_, rfl⟩
    obtain ⟨e, e2⟩ := e2
    refine ⟨e, (C21_factorises memberI member_logpdf_rng ⟨Concrete.sideMembers⟩ _ _ _ _ g).trans ?_⟩
    simp only [Concrete.sideMembers, List.mapM_cons, List.mapM_nil]
    rw [e1, e2]
    rfl

end Props
end Cgpm2
