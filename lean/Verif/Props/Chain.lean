import Verif.Lemmas.Chain
import Verif.Lemmas.ConcreteTower
import Verif.Props.PrimScore
import Verif.Props.LinReg
import Verif.Props.Forest
import Verif.Props.Table
import Verif.Props.Samples
import Verif.Lemmas.TidyLaws

/-!
# Properties C67, C86-C88: chains
-/

namespace Cgpm2

namespace Concrete

/-- A variable with three values, an input of the regression of variable 7, whose other input 2 is
given from outside. -/
noncomputable def chainMembers : List Member :=
  [.tower 0 (.categorical (Categorical.init [1] [] [] [] 3) : Prim), .linreg reg0]

/-- The network of these two: variable 1 is required by queries about variable 7. -/
def chainNet : Network where
  topo := [0, 1]
  required ts cs := if 7 ∈ ts ++ cs ∧ 1 ∉ ts ∧ 1 ∉ cs then [1] else []

noncomputable def chain0 : Chain Member := Chain.init chainMembers none chainNet

theorem chain0_mem {b : Member} (hb : b ∈ chain0.cgpms) :
    b = .tower 0 (.categorical (Categorical.init [1] [] [] [] 3) : Prim) ∨ b = .linreg reg0 := by
  have : b ∈ chainMembers := hb
  simpa [chainMembers] using this

theorem chain0_net : Spec.NetworkOk memberI chain0 where
  disjoint := by
    change ([1, 7] : List Var).Nodup
    decide
  all := by
    change ([0, 1] : List Nat).Perm [0, 1]
    exact .refl _
  order := by
    change List.Pairwise _ ([0, 1] : List Nat)
    refine List.pairwise_cons.2 ⟨fun k hk b c hb hc i hi => ?_, List.pairwise_singleton _ _⟩
    cases hb
    cases hi
  acyclic b hb i hi := by
    rcases chain0_mem hb with rfl | rfl
    · cases hi
    · have : i = 1 ∨ i = 2 := by simpa [memberI, reg0] using hi
      rcases this with rfl | rfl <;> simp [memberI, reg0]
  required ts cs v := by
    have hneed : ∀ v, Spec.Needed memberI chain0.cgpms (ts ++ cs) v → (v = 1 ∨ v = 2) ∧ 7 ∈ ts ++ cs := by
      intro v h
      induction h with
      | direct hb hv h hi =>
        rcases chain0_mem hb with rfl | rfl
        · cases hi
        · have h7 := List.mem_singleton.1 (show _ ∈ ([7] : List Var) from hv)
          rw [h7] at h
          exact ⟨by simpa [memberI, reg0] using hi, h⟩
      | further hb hv h hi ih =>
        rcases chain0_mem hb with rfl | rfl
        · cases hi
        · exact ⟨by simpa [memberI, reg0] using hi, ih.2⟩
    have hout : Chain.outputs memberI chain0 = [1, 7] := rfl
    rw [hout]
    change v ∈ (if _ then _ else _) ↔ _
    split
    · next h =>
      simp only [List.mem_singleton]
      constructor
      · rintro rfl
        refine ⟨.direct (b := .linreg reg0) (v := 7) (by simp [chain0, Chain.init, chainMembers]) ?_ h.1 ?_,
          by simp, h.2⟩ <;> simp [memberI, reg0]
      · rintro ⟨h1, h2, -⟩
        rcases (hneed v h1).1 with rfl | rfl
        · rfl
        · simp at h2
    · next h =>
      simp only [List.not_mem_nil, false_iff]
      rintro ⟨h1, h2, h3, h4⟩
      obtain ⟨rfl | rfl, h5⟩ := hneed v h1
      · exact h ⟨h5, h3, h4⟩
      · simp at h2

theorem chain0_ok : ∀ b ∈ chain0.cgpms, Spec.MemberOk b := by
  intro b hb
  rcases chain0_mem hb with rfl | rfl
  · exact .prim0 cat0_legally
  · trivial

/-- A row of the chain, and the value of its exogenous input. -/
def chainRow : Dict Var Val := [(1, .num 2), (7, .num (5/2))]
def chainIns : Dict Var Val := [(2, .num 1)]

theorem chain0_supplied : Spec.Supplied memberI chain0 chainRow chainIns := by
  intro b hb _ i hi
  rcases chain0_mem hb with rfl | rfl
  · cases hi
  · have : i = 1 ∨ i = 2 := by simpa [memberI, reg0] using hi
    rcases this with rfl | rfl
    · exact Or.inl (by simp [chainRow, Dict.keys])
    · refine Or.inr ⟨by simp [chainIns, Dict.keys], ?_⟩
      change (2 : Var) ∉ [1, 7]
      decide

end Concrete

namespace Props
open Spec

/-! ### C67: the log density of a row is the sum of the members' -/

/-- **C67.** For a chain of reachable members with any positive accuracy, and a row in which every
member with a variable finds its inputs: `logpdf` is the sum of the members' log densities of
their parts of the row, given their parents' values; no random number is used. -/
theorem C67 {ch : Chain Member} (hn : NetworkOk memberI ch) (hm : ∀ b ∈ ch.cgpms, MemberOk b)
    (ha : 0 < ch.accuracy) {r : RowId} {row ins : Dict Var Val} (hd : (Dict.keys row).Nodup)
    (hs : Supplied memberI ch row ins) {g : Rng} {xs : List Fl}
    (hx : ch.cgpms.mapM (memberLogpdf memberI r row ins g) = .ok xs) (hl : ∀ x ∈ xs, x.IsLogP) :
    ∃ ch', Chain.logpdf memberI r row [] ins (ch, g) = (.ok (Fl.sum xs), (ch', g)) := by
  have hmer : merged row [] = row := Dict.update_nil_left row hd
  have hno : ∀ b ∈ ch.cgpms, memberLogpdf memberI r [] ins g b = .ok (.fin 0) := fun b _ => by
    unfold memberLogpdf; exact if_pos rfl
  have hs0 : Supplied memberI ch [] ins := fun b _ ⟨v, _, hv⟩ => nomatch hv
  obtain ⟨ch', h1, -⟩ := Chain.logpdf_row memberQuiet (fun b hb => (hm b hb |> MemberE.refl)) ha hn.all
    (r := r) (t := row) (c := []) (ins := ins) (by
      intro row' hr'
      rw [hmer] at hr'
      rcases List.mem_cons.1 hr' with rfl | hr'
      · exact hs.weak
      · rw [List.mem_singleton.1 hr']; exact hs0.weak) (by
      intro row' hr'
      rw [hmer] at hr'
      rcases List.mem_cons.1 hr' with rfl | hr'
      · exact Chain.required_nil hn hs
      · rw [List.mem_singleton.1 hr']; exact Chain.required_nil hn hs0) g g (by rw [hmer]; exact hx)
      (ys := ch.cgpms.map fun _ => .fin 0) (mapM_ok _ _ _ hno) hl (by
        intro y hy
        obtain ⟨b, -, rfl⟩ := List.mem_map.1 hy
        trivial)
  refine ⟨ch', ?_⟩
  rw [h1, if_neg (by simp), if_pos rfl, Fl.sum_eq, Fl.sub_zero' (Fl.isLogP_sum hl)]

/-- **C67.** Conditioned on a part of the row in which the members find their inputs as well, `logpdf`
is the difference of the two sums; a part with probability zero raises ValueError. -/
theorem C67_conditional {ch : Chain Member} (hn : NetworkOk memberI ch) (hm : ∀ b ∈ ch.cgpms, MemberOk b)
    (ha : 0 < ch.accuracy) {r : RowId} {t c ins : Dict Var Val} (hc : c ≠ [])
    (hs : Supplied memberI ch (merged t c) ins) (hs' : Supplied memberI ch c ins) {g : Rng}
    {xs ys : List Fl} (hx : ch.cgpms.mapM (memberLogpdf memberI r (merged t c) ins g) = .ok xs)
    (hy : ch.cgpms.mapM (memberLogpdf memberI r c ins g) = .ok ys)
    (hl : ∀ x ∈ xs, x.IsLogP) (hl' : ∀ y ∈ ys, y.IsLogP) :
    ∃ ch' out, Chain.logpdf memberI r t c ins (ch, g) = (out, (ch', g)) ∧
      (Fl.sum ys = .ninf → out = .error .valueError) ∧
      (Fl.sum ys ≠ .ninf → out = .ok (Fl.sum xs - Fl.sum ys)) := by
  obtain ⟨ch', h1, -⟩ := Chain.logpdf_row memberQuiet (fun b hb => (hm b hb |> MemberE.refl)) ha hn.all
    (r := r) (t := t) (c := c) (ins := ins) (by
      intro row' hr'
      rcases List.mem_cons.1 hr' with rfl | hr'
      · exact hs.weak
      · rw [List.mem_singleton.1 hr']; exact hs'.weak) (by
      intro row' hr'
      rcases List.mem_cons.1 hr' with rfl | hr'
      · exact Chain.required_nil hn hs
      · rw [List.mem_singleton.1 hr']; exact Chain.required_nil hn hs') g g hx hy hl hl'
  have hys := Fl.isLogP_sum hl'
  have hi : ys.sum.isInf = true ↔ ys.sum = .ninf := by
    revert hys
    cases ys.sum <;> simp [Fl.isInf, Fl.IsLogP]
  refine ⟨ch', _, h1, fun h => ?_, fun h => ?_⟩
  · rw [Fl.sum_eq] at h
    rw [if_pos ⟨hc, hi.2 h⟩]
  · rw [Fl.sum_eq] at h
    rw [if_neg fun h' => h (hi.1 h'.2), if_neg hc, Fl.sum_eq, Fl.sum_eq]

/-- **C67.** If a member raises on its part of the row, then so does the chain, with the exception
of a member. -/
theorem C67_raises {ch : Chain Member} (hn : NetworkOk memberI ch) (hm : ∀ b ∈ ch.cgpms, MemberOk b)
    (ha : 0 < ch.accuracy) {r : RowId} {row ins : Dict Var Val} (hd : (Dict.keys row).Nodup)
    (hs : Supplied memberI ch row ins) {g : Rng} {b : Member} (hb : b ∈ ch.cgpms) {e : Err}
    (he : memberLogpdf memberI r row ins g b = .error e) :
    ∃ e', (Chain.logpdf memberI r row [] ins (ch, g)).1 = .error e' ∧
      ∃ b' ∈ ch.cgpms, memberLogpdf memberI r row ins g b' = .error e' := by
  have hmer : merged row [] = row := Dict.update_nil_left row hd
  obtain ⟨e', ch', h1, h2⟩ := Chain.logpdf_raises memberQuiet (fun b hb => (hm b hb |> MemberE.refl)) ha
    hn.all (r := r) (t := row) (c := []) (ins := ins) (by rw [hmer]; exact hs.weak)
    (by rw [hmer]; exact Chain.required_nil hn hs) g g hb (by rw [hmer]; exact he)
  rw [hmer] at h2
  exact ⟨e', by rw [h1], h2⟩

/-! ### C86: the chain rule -/

theorem each_adds {I : Iface Member} {r : RowId} {row ins : Dict Var Val} {cs : List Member}
    (hx : ∀ b ∈ cs, if only (I.outputs b) row = [] then ∃ s : ℝ, I.logpdfScore b = .ok (.fin s)
      else AddsUp I b r (only (I.outputs b) row) (merged (only (I.inputs b) ins) (only (I.inputs b) row))
        (merged (only (I.inputs b) row) (only (I.inputs b) ins))) (g : Rng) :
    ∃ ss ls : List ℝ, cs.mapM I.logpdfScore = .ok (ss.map Fl.fin) ∧
      (∀ g, cs.mapM (memberLogpdf I r row ins g) = .ok (ls.map Fl.fin)) ∧
      ∃ us cs' g', Py.each (observeOne I r row ins) (cs, g) = (.ok us, (cs', g')) ∧
        ∃ ts : List ℝ, cs'.mapM I.logpdfScore = .ok (ts.map Fl.fin) ∧ ts.sum = ss.sum + ls.sum := by
  induction cs generalizing g with
  | nil => exact ⟨[], [], rfl, fun _ => rfl, [], [], g, rfl, [], rfl, by simp⟩
  | cons b cs ih =>
    have hb := hx b (by simp)
    have hstep : ∃ s l : ℝ, I.logpdfScore b = .ok (.fin s) ∧
        (∀ g, memberLogpdf I r row ins g b = .ok (.fin l)) ∧
        ∃ b' g', observeOne I r row ins (b, g) = (.ok (), (b', g')) ∧ I.logpdfScore b' = .ok (.fin (s + l)) := by
      have ho : observeOne I r row ins (b, g) = (if only (I.outputs b) row ≠ [] then
          I.observe r (only (I.outputs b) row) (merged (only (I.inputs b) row) (only (I.inputs b) ins))
          else pure ()) (b, g) := rfl
      split at hb
      · next h0 =>
        obtain ⟨s, hs⟩ := hb
        refine ⟨s, 0, hs, fun g => by unfold memberLogpdf; rw [if_pos h0], b, g, ?_, by rw [add_zero, hs]⟩
        rw [ho, if_neg (by simpa using h0)]; rfl
      · next h0 =>
        obtain ⟨s, l, h1, h2⟩ := hb
        refine ⟨s, l, h1, fun g => by unfold memberLogpdf; rw [if_neg h0]; exact (h2 g).1, ?_⟩
        obtain ⟨-, h3, h4⟩ := h2 g
        rw [ho, if_pos h0]
        refine ⟨_, _, Prod.ext h3 rfl, h4⟩
    obtain ⟨s, l, h1, h2, b', g', h3, h4⟩ := hstep
    obtain ⟨ss, ls, i1, i2, us, cs', g'', i3, ts, i4, i5⟩ := ih (fun c hc => hx c (by simp [hc])) g'
    refine ⟨s :: ss, l :: ls, ?_, fun g => ?_, () :: us, b' :: cs', g'', ?_, (s + l) :: ts, ?_, ?_⟩
    · rw [List.mapM_cons, h1, i1]; rfl
    · rw [List.mapM_cons, h2, i2]; rfl
    · rw [Py.each_cons, h3]
      dsimp only
      rw [i3]
    · rw [List.mapM_cons, h4, i4]; rfl
    · rw [List.sum_cons, List.sum_cons, List.sum_cons, i5]; ring

theorem sum_fin (l : List ℝ) : Fl.sum (l.map Fl.fin) = .fin l.sum := by
  rw [Fl.sum_eq]
  induction l with
  | nil => rfl
  | cons a l ih => rw [List.map_cons, List.sum_cons, ih, List.sum_cons]; rfl

/-- **C86.** If the members obey the chain rule for their parts of a row, then the chain obeys it:
the score and the log density are finite, the row is accepted, and the score after is the score
before plus the log density. -/
theorem C86 {ch : Chain Member} (hn : NetworkOk memberI ch) (hm : ∀ b ∈ ch.cgpms, MemberOk b)
    (ha : 0 < ch.accuracy) {r : RowId} {row ins : Dict Var Val} (hd : (Dict.keys row).Nodup)
    (hs : Supplied memberI ch row ins)
    (hx : ∀ b ∈ ch.cgpms, if only (memberI.outputs b) row = []
      then ∃ s : ℝ, memberI.logpdfScore b = .ok (.fin s)
      else AddsUp memberI b r (only (memberI.outputs b) row)
        (merged (only (memberI.inputs b) ins) (only (memberI.inputs b) row))
        (merged (only (memberI.inputs b) row) (only (memberI.inputs b) ins))) (g : Rng) :
    ∃ s l : ℝ, Chain.logpdfScore memberI ch = .ok (.fin s) ∧
      (Chain.logpdf memberI r row [] ins (ch, g)).1 = .ok (.fin l) ∧
      (Chain.observe memberI r row ins (ch, g)).1 = .ok () ∧
      Chain.logpdfScore memberI (Chain.observe memberI r row ins (ch, g)).2.1 = .ok (.fin (s + l)) := by
  obtain ⟨ss, ls, h1, h2, us, cs', g', h3, ts, h4, h5⟩ := each_adds hx g
  have hobs : Chain.observe memberI r row ins (ch, g) = (.ok (), ({ ch with cgpms := cs' }, g')) := by
    unfold Chain.observe Chain.each
    rw [Py.bind_apply]
    unfold Py.onAttr
    dsimp only
    rw [h3]
    rfl
  obtain ⟨ch', h6⟩ := C67 hn hm ha hd hs (h2 g) (by
    intro x hx
    obtain ⟨y, -, rfl⟩ := List.mem_map.1 hx
    trivial)
  refine ⟨ss.sum, ls.sum, ?_, ?_, ?_, ?_⟩
  · unfold Chain.logpdfScore
    rw [h1]
    exact congrArg _ (sum_fin ss)
  · rw [h6, sum_fin]
  · rw [hobs]
  · rw [hobs, ← h5]
    unfold Chain.logpdfScore
    dsimp only
    rw [h4]
    exact congrArg _ (sum_fin ts)

/-- Two ways of merging dicts without common keys give the same lookups. -/
theorem merged_swap {d e : Dict Var Val} (hd : (Dict.keys d).Nodup) (he : (Dict.keys e).Nodup)
    (h : ∀ k ∈ Dict.keys d, k ∉ Dict.keys e) (k : Var) :
    Dict.get? (merged d e) k = Dict.get? (merged e d) k := by
  unfold merged
  rw [Dict.update_nil_left d hd, Dict.update_nil_left e he, Dict.get?_update _ _ he, Dict.get?_update _ _ hd]
  rcases h1 : Dict.get? d k with _ | x <;> rcases h2 : Dict.get? e k with _ | y
  · rfl
  · rfl
  · rfl
  · exact absurd (Dict.mem_keys_of_get? h2) (h k (Dict.mem_keys_of_get? h1))

theorem keys_only_nodup {X : List Var} {d : Dict Var Val} (hd : (Dict.keys d).Nodup) :
    (Dict.keys (only X d)).Nodup := by
  have : (Dict.keys (only X d)).Sublist (Dict.keys d) := (List.filter_sublist).map _
  exact hd.sublist this

theorem mem_keys_only {X : List Var} {d : Dict Var Val} {k : Var} (h : k ∈ Dict.keys (only X d)) :
    k ∈ Dict.keys d := by
  obtain ⟨kv, hkv, rfl⟩ := List.mem_map.1 h
  exact List.mem_map.2 ⟨kv, (List.mem_filter.1 hkv).1, rfl⟩

/-- **C86.** A primitive obeys the chain rule for a number it accepts. -/
theorem C86_primitive {p : Prim} (h : LegallyReachable p) (hi : p.inputs = []) {o : Var}
    (ho : p.outputs = [o]) {r : RowId} (hr : Dict.get? p.data r = none) {q : ℚ} (hq : Accepts p (.num q))
    (row ins : Dict Var Val) :
    AddsUp memberI (.tower 0 p) r [(o, .num q)]
      (merged (only (memberI.inputs (.tower 0 p)) ins) (only (memberI.inputs (.tower 0 p)) row))
      (merged (only (memberI.inputs (.tower 0 p)) row) (only (memberI.inputs (.tower 0 p)) ins)) := by
  have hon : ∀ d : Dict Var Val, only (memberI.inputs (.tower 0 p)) d = [] := fun d => by
    change only p.inputs d = []
    rw [hi]
    exact List.filter_eq_nil_iff.2 (by simp)
  rw [hon, hon]
  obtain ⟨a, x, h1, h2, h3, h4⟩ := C12_chain_rule h ho hr hq
  refine ⟨a, x, h1, fun g => ⟨h2, ?_, ?_⟩⟩
  · exact h3
  · exact h4

/-- **C86.** A regression with complete rows obeys it for a number and complete inputs, whether they
are parents' values or exogenous, as long as no variable is both. -/
theorem C86_regression {m : LinReg} {rows : List RegRow} (h : RegHistory m rows)
    (hc : ∀ t ∈ rows, RegRow.Complete m.inputs t) {o : Var} (ho : m.outputs = [o]) {r : RowId}
    (hr : Dict.get? m.data r = none) (q : ℚ) {row ins : Dict Var Val} (hd : (Dict.keys row).Nodup)
    (hd' : (Dict.keys ins).Nodup) (hdis : ∀ k ∈ Dict.keys row, k ∉ Dict.keys ins)
    (hi : InputsPresent m.inputs (merged (only m.inputs row) (only m.inputs ins)))
    {y : List Val} (hy : m.processInputs (merged (only m.inputs row) (only m.inputs ins)) = .ok y) :
    AddsUp memberI (.linreg m) r [(o, .num q)]
      (merged (only (memberI.inputs (.linreg m)) ins) (only (memberI.inputs (.linreg m)) row))
      (merged (only (memberI.inputs (.linreg m)) row) (only (memberI.inputs (.linreg m)) ins)) := by
  have hsame : m.processInputs (merged (only m.inputs ins) (only m.inputs row)) =
      m.processInputs (merged (only m.inputs row) (only m.inputs ins)) := by
    unfold LinReg.processInputs Dict.getItem
    have := merged_swap (keys_only_nodup (X := m.inputs) hd) (keys_only_nodup (X := m.inputs) hd')
      (fun k h1 h2 => hdis k (mem_keys_only h1) (mem_keys_only h2))
    simp only [this]
  have hlog : ∀ t, m.logpdf r t [] (merged (only m.inputs ins) (only m.inputs row)) =
      m.logpdf r t [] (merged (only m.inputs row) (only m.inputs ins)) := fun t => by
    unfold LinReg.logpdf
    rw [hsame]
  obtain ⟨s, l, h1, h2, h3, h4⟩ := C66 h hc ho hr q hi hy
  refine ⟨s, l, h1, fun g => ⟨?_, ?_, ?_⟩⟩
  · exact (hlog _).trans h2
  · exact h3
  · exact h4

theorem Concrete.chain0_adds : ∀ b ∈ Concrete.chain0.cgpms, if only (memberI.outputs b) Concrete.chainRow = []
      then ∃ s : ℝ, memberI.logpdfScore b = .ok (.fin s)
      else AddsUp memberI b (some 0) (only (memberI.outputs b) Concrete.chainRow)
        (merged (only (memberI.inputs b) Concrete.chainIns) (only (memberI.inputs b) Concrete.chainRow))
        (merged (only (memberI.inputs b) Concrete.chainRow) (only (memberI.inputs b) Concrete.chainIns)) := by
  intro b hb
  rcases Concrete.chain0_mem hb with rfl | rfl
  · rw [if_neg (by change ([(1, .num 2)] : Dict Var Val) ≠ []; simp)]
    exact C86_primitive Concrete.cat0_legally rfl (o := 1) rfl (r := some 0) rfl (q := 2)
      ⟨2, show 2 < 3 by norm_num, by norm_num⟩ Concrete.chainRow Concrete.chainIns
  · rw [if_neg (by change ([(7, .num (5/2))] : Dict Var Val) ≠ []; simp)]
    refine C86_regression Concrete.reg0_history (by simp) (o := 7) rfl (r := some 0) rfl (5/2)
      (row := Concrete.chainRow) (ins := Concrete.chainIns) (by decide) (by decide) ?_ ?_
      (y := [.num 1, .num 2, .num 0, .num 1]) rfl
    · simp [Concrete.chainRow, Concrete.chainIns, Dict.keys]
    · intro i hi
      have : i = 1 ∨ i = 2 := by simpa [Concrete.reg0] using hi
      rcases this with rfl | rfl
      · change some (Val.num 2) ≠ _; simp
      · change some (Val.num 1) ≠ _; simp

example (g : Rng) := C86 Concrete.chain0_net Concrete.chain0_ok (by decide) (r := some 0)
  (by decide) Concrete.chain0_supplied Concrete.chain0_adds g

example (g : Rng) : ∃ xs : List Fl, Concrete.chain0.cgpms.mapM (memberLogpdf memberI (some 0)
    Concrete.chainRow Concrete.chainIns g) = .ok xs ∧ ∀ x ∈ xs, x.IsLogP := by
  obtain ⟨ss, ls, -, h2, -⟩ := each_adds Concrete.chain0_adds g
  refine ⟨_, h2 g, fun x hx => ?_⟩
  obtain ⟨y, -, rfl⟩ := List.mem_map.1 hx
  trivial

/-- **C86 is violated** when the inputs name a variable that is also in the row: the regression stores
the given input 0 as its value of variable 1, but `logpdf` uses the value 2 that the row has. -/
theorem C86_inputs_violated (g : Rng) :
    (∃ b m', (Chain.observe memberI (some 0) Concrete.chainRow [(1, .num 0), (2, .num 1)]
        (Concrete.chain0, g)).2.1.cgpms = [b, .linreg m'] ∧
      Dict.get? m'.dataYraw (some 0) = some [some (.num 0), some (.num 1)]) ∧
    ∀ g', memberLogpdf memberI (some 0) Concrete.chainRow [(1, .num 0), (2, .num 1)] g'
        (.linreg Concrete.reg0) =
      Concrete.reg0.logpdf (some 0) [(7, .num (5/2))] [] [(1, .num 2), (2, .num 1)] :=
  ⟨⟨_, _, rfl, rfl⟩, fun _ => rfl⟩

/-! ### C87: unobserve -/

/-- A loop over calls whose exceptions are swallowed goes through all the members. -/
theorem each_unobserveOne {S : Type} (I : Iface S) (r : RowId) (cs : List S) (g : Rng) :
    ∃ ps cs' g', Py.each (unobserveOne I r) (cs, g) = (.ok ps, (cs', g')) ∧ ps.length = cs.length ∧
      ∀ c ∈ cs, ∃ g, (I.unobserve r (c, g)).2.1 ∈ cs' := by
  induction cs generalizing g with
  | nil => exact ⟨[], [], g, rfl, rfl, by simp⟩
  | cons c cs ih =>
    obtain ⟨p, hp⟩ : ∃ p, unobserveOne I r (c, g) = (.ok p, (I.unobserve r (c, g)).2) := by
      unfold unobserveOne Py.catchAll
      rcases I.unobserve r (c, g) with ⟨e | x, st⟩
      · exact ⟨_, rfl⟩
      · exact ⟨_, rfl⟩
    obtain ⟨ps, cs', g', h1, h2, h3⟩ := ih (I.unobserve r (c, g)).2.2
    refine ⟨p :: ps, (I.unobserve r (c, g)).2.1 :: cs', g', ?_, by simp [h2], ?_⟩
    · rw [Py.each_cons, hp]
      dsimp only
      rw [h1]
    · intro c' hc'
      rcases List.mem_cons.1 hc' with rfl | hc'
      · exact ⟨g, by simp⟩
      · obtain ⟨g0, h4⟩ := h3 c' hc'
        exact ⟨g0, List.mem_cons_of_mem _ h4⟩

/-- **C87 is violated.** Unobserving a row that a regression in the chain holds raises nothing, and
leaves the chain without a score: `logpdf_score` raises from then on. -/
theorem C87_violated {ch : Chain Member} {m : LinReg} {rows : List RegRow} (h : RegHistory m rows)
    (hm : .linreg m ∈ ch.cgpms) {o : Var} (ho : m.outputs = [o]) {r : RowId} {x : Val}
    (hr : Dict.get? m.data r = some x) (g : Rng) :
    (∃ out, (Chain.unobserve memberI r (ch, g)).1 = .ok out) ∧
    ∃ e, Chain.logpdfScore memberI (Chain.unobserve memberI r (ch, g)).2.1 = .error e := by
  obtain ⟨ps, cs', g', h1, h2, h3⟩ := each_unobserveOne memberI r ch.cgpms g
  have hne : ps ≠ [] := by
    rintro rfl
    rw [List.eq_nil_of_length_eq_zero h2.symm] at hm
    cases hm
  have hrun : Chain.unobserve memberI r (ch, g) =
      (.ok (mergedl (ps.map Prod.fst), mergedl (ps.map Prod.snd)), ({ ch with cgpms := cs' }, g')) := by
    unfold Chain.unobserve Chain.each
    rw [Py.bind_apply]
    unfold Py.onAttr
    dsimp only
    rw [h1]
    dsimp only
    rw [if_neg hne]
    rfl
  obtain ⟨g0, h4⟩ := h3 _ hm
  obtain ⟨-, -, -, h5, -⟩ := C65_violated h ho hr
  refine ⟨⟨_, by rw [hrun]⟩, ?_⟩
  rw [hrun]
  unfold Chain.logpdfScore
  dsimp only
  rcases Chain.mapM_error memberI.logpdfScore cs' with ⟨l, hl⟩ | ⟨e, he, -⟩
  · exfalso
    obtain ⟨k, hk, hk'⟩ := List.getElem_of_mem h4
    have hf := (mapM_ok_iff _ _ _).1 hl
    have := hf.get hk (hf.length_eq ▸ hk)
    rw [List.get_eq_getElem, hk'] at this
    have hsc : memberI.logpdfScore (memberI.unobserve r (.linreg m, g0)).2.1 = .error .assertionError := h5
    rw [hsc] at this
    cases this
  · rw [he]; exact ⟨e, rfl⟩

/-- The chain of the example after observing its row. -/
noncomputable def Concrete.chain1 (g : Rng) : Chain Member :=
  (Chain.observe memberI (some 0) Concrete.chainRow Concrete.chainIns (Concrete.chain0, g)).2.1

/-- The value of the regression's variable is not handed back, nor are the inputs. -/
example (g : Rng) : (Chain.unobserve memberI (some 0) (Concrete.chain1 g, g)).1 = .ok ([(1, .num 2)], []) := rfl

example (g : Rng) : ∃ b m, (Concrete.chain1 g).cgpms = [b, .linreg m] ∧ m.outputs = [7] ∧
    Dict.get? m.data (some 0) = some (.num (5/2)) ∧ ∃ rows, RegHistory m rows :=
  ⟨_, _, rfl, rfl, rfl, _, Concrete.reg0_history.observe (r := some 0) (o := 7) (x := .num (5/2))
    (ob := [(7, .num (5/2))]) (ins := [(1, .num 2), (2, .num 1)]) rfl rfl rfl⟩

theorem unobserve_product {S : Type} (I : Iface S) (r : RowId) (ch : Chain S) (g : Rng) :
    Chain.unobserve I r (ch, g) =
      ((Product.unobserve I r (⟨ch.cgpms⟩, g)).1,
        ({ ch with cgpms := (Product.unobserve I r (⟨ch.cgpms⟩, g)).2.1.cgpms },
          (Product.unobserve I r (⟨ch.cgpms⟩, g)).2.2)) := by
  unfold Chain.unobserve Product.unobserve Chain.each Product.each
  rw [Py.bind_apply, Py.bind_apply]
  unfold Py.onAttr
  dsimp only
  rcases Py.each (unobserveOne I r) (ch.cgpms, g) with ⟨e | ps, cs', g'⟩
  · rfl
  · dsimp only
    split <;> rfl

theorem observe_product {S : Type} (I : Iface S) (r : RowId) (o i : Dict Var Val) (ch : Chain S) (g : Rng) :
    Chain.observe I r o i (ch, g) =
      ((Product.observe I r o i (⟨ch.cgpms⟩, g)).1,
        ({ ch with cgpms := (Product.observe I r o i (⟨ch.cgpms⟩, g)).2.1.cgpms },
          (Product.observe I r o i (⟨ch.cgpms⟩, g)).2.2)) := by
  unfold Chain.observe Product.observe Chain.each Product.each
  rw [Py.bind_apply, Py.bind_apply]
  unfold Py.onAttr
  dsimp only
  rcases Py.each (observeOne I r o i) (ch.cgpms, g) with ⟨e | ps, cs', g'⟩ <;> rfl

/-- **C87, what holds.** In a chain of primitives, `unobserve` after an accepted `observe` of a new row
hands back the entries of the observation that are outputs of the chain, and the members answer
every sequence of calls as before the observation.  Missing: regressions and forests, for which it is
false. -/
theorem C87_partial {Z : List Var} {ch ch' : Chain Prim} (h : Tidy Z 1 (.product ⟨ch.cgpms⟩ : Node Prim))
    {r : RowId} (hr : ∀ q ∈ ch.cgpms, Dict.get? q.data r = none) {o i : Dict Var Val}
    (hw : WholeClusters Z o) {g g' : Rng}
    (ho : Chain.observe primI r o i (ch, g) = (.ok (), (ch', g'))) (g'' : Rng) :
    ∃ ob ch2, Chain.unobserve primI r (ch', g'') = (.ok (ob, []), (ch2, g'')) ∧
      (∀ v, Dict.get? ob v = if v ∈ Chain.outputs primI ch then Dict.get? o v else none) ∧
      ch2.accuracy = ch.accuracy ∧ ch2.net = ch.net ∧
      ∀ as g, answers (productI primI) as (⟨ch2.cgpms⟩, g) = answers (productI primI) as (⟨ch.cgpms⟩, g) := by
  rw [observe_product] at ho
  rcases hp : Product.observe primI r o i (⟨ch.cgpms⟩, g) with ⟨e | u, p', g1⟩
  · rw [hp] at ho; cases ho
  · rw [hp] at ho
    cases ho
    obtain ⟨ob, p2, h1, h2, h3⟩ := C22_inverse h hr hw hp g''
    have h1 : Product.unobserve primI r (p', g'') = _ := h1
    refine ⟨ob, { ch with cgpms := p2.cgpms }, ?_, h2, rfl, rfl, h3⟩
    rw [unobserve_product, h1]

/-! ### C88: ancestral sampling -/

theorem disjoint_members {S : Type} {I : Iface S} {cs : List S} (h : (cs.flatMap I.outputs).Nodup)
    (j k : Nat) (b c : S) (hjk : j ≠ k) (hb : cs[j]? = some b) (hc : cs[k]? = some c) :
    ∀ v ∈ I.outputs b, v ∉ I.outputs c := by
  have hp := (List.nodup_flatMap.1 h).2
  obtain ⟨hj, rfl⟩ := List.getElem?_eq_some_iff.1 hb
  obtain ⟨hk, rfl⟩ := List.getElem?_eq_some_iff.1 hc
  have hp := List.pairwise_iff_getElem.1 hp
  intro v hv hv'
  rcases Nat.lt_or_gt_of_ne hjk with h' | h'
  · exact hp j k hj hk h' hv hv'
  · exact hp k j hk hj h' hv' hv

theorem picked {full : Dict Var Val} {ts : List Var} {vs : List Val}
    (h : List.Forall₂ (fun q x => Dict.getItem full q = .ok x) ts vs) (d : Dict Var Val) (v : Var) :
    Dict.get? (Dict.update d (ts.zip vs)) v = if v ∈ ts then Dict.get? full v else Dict.get? d v := by
  induction h generalizing d with
  | nil => rfl
  | @cons q x ts vs hq _ ih =>
    rw [List.zip_cons_cons, Dict.update_cons, ih, Dict.get?_set]
    have hq' : Dict.get? full q = some x := by
      unfold Dict.getItem at hq
      rcases hg : Dict.get? full q with _ | y <;> rw [hg] at hq <;> cases hq
      rfl
    by_cases h1 : v ∈ ts
    · rw [if_pos h1, if_pos (by simp [h1])]
    · by_cases h2 : q = v
      · subst h2
        rw [if_neg h1, if_pos rfl, if_pos (by simp), hq']
      · rw [if_neg h1, if_neg h2, if_neg (by simp [h1, Ne.symm h2])]

/-- **C88.** A chain with accuracy 1, asked for targets without constraints, samples ancestrally: in
topological order each member is asked once for its targets and its variables needed by others,
given the values just drawn for its parents; the answer is the drawn values of the targets. -/
theorem C88 {ch : Chain Member} (hn : NetworkOk memberI ch) (hm : ∀ b ∈ ch.cgpms, MemberOk b)
    {r : RowId}
    (hR : ∀ b ∈ ch.cgpms, ReturnsTargets memberI r b) (ha : ch.accuracy = 1) {ts : List Var}
    {ins s : Dict Var Val} {g g' : Rng} {ch' : Chain Member}
    (h : Chain.simulate memberI r ts [] ins none (ch, g) = (.ok (.one s), (ch', g'))) :
    ∃ full, Ancestral memberI r (ts ++ ch.net.required ts []) ins full
        (ch.net.topo.filterMap (ch.cgpms[·]?)) g g' ∧
      (∀ v, v ∈ Dict.keys full ↔ v ∈ ts ++ ch.net.required ts []) ∧
      ∀ v, Dict.get? s v = if v ∈ ts then Dict.get? full v else none := by
  have hs : Chain.simulate1 memberI r ts [] ins (ch, g) = (.ok s, (ch', g')) := by
    have h : (Chain.simulate1 memberI r ts [] ins >>= fun s => (pure (.one s) : Py _ SimOut)) (ch, g) =
      (.ok (.one s), (ch', g')) := h
    rw [Py.bind_apply] at h
    rcases hs : Chain.simulate1 memberI r ts [] ins (ch, g) with ⟨e | s', st⟩
    · rw [hs] at h; cases h
    · rw [hs] at h; cases h; rfl
  clear h
  unfold Chain.simulate1 at hs
  rw [Py.bind_apply] at hs
  unfold Chain.weightedSamples at hs
  rw [Py.bind_apply, Py.get_apply] at hs
  dsimp only at hs
  rw [ha] at hs
  have e1 : Py.mapL (fun _ : Nat => Chain.weightedSample memberI r ts [] ins) (List.range 1) (ch, g) =
      (Chain.weightedSample memberI r ts [] ins >>= fun y => pure [y]) (ch, g) := rfl
  rw [e1, Py.bind_apply] at hs
  rcases hw : Chain.weightedSample memberI r ts [] ins (ch, g) with ⟨e | ⟨full, w⟩, ch1, g1⟩
  · rw [hw] at hs; cases hs
  rw [hw] at hs
  dsimp only at hs
  rw [Py.pure_apply] at hs
  dsimp only at hs
  -- the weighted sample
  unfold Chain.weightedSample at hw
  rw [Py.bind_apply, Py.get_apply] at hw
  dsimp only at hw
  rw [Py.bind_apply] at hw
  unfold Py.onAttr at hw
  dsimp only at hw
  rcases hl : Chain.levels memberI r (ts ++ ch.net.required ts (Dict.keys ([] : Dict Var Val))) ins ch.net.topo
    [] 0 (ch.cgpms, g) with ⟨e | ⟨full', w'⟩, cs', g2⟩
  · rw [hl] at hw; cases hw
  rw [hl] at hw
  dsimp only at hw
  rw [Py.bind_apply, Py.assert_apply] at hw
  by_cases hkeys : ((∀ k ∈ Dict.keys full', k ∈ Dict.keys ([] : Dict Var Val) ++ (ts ++ ch.net.required ts (Dict.keys ([] : Dict Var Val)))) ∧
    ∀ k ∈ Dict.keys ([] : Dict Var Val) ++ (ts ++ ch.net.required ts (Dict.keys ([] : Dict Var Val))), k ∈ Dict.keys full')
  swap
  · rw [if_neg hkeys] at hw; cases hw
  rw [if_pos hkeys] at hw
  cases hw
  obtain ⟨l1, l2, -, -, l5⟩ := Chain.levels_sample memberQuiet hR hn.acyclic (disjoint_members hn.disjoint)
    ch.net.topo (fun k hk => by simpa using hn.all.mem_iff.1 hk)
    (hn.all.nodup_iff.2 List.nodup_range) hn.order (by intro k _ b _ v hv; cases hv)
    (List.forall₂_same.2 fun b hb => MemberE.refl (hm b hb)) hl
  subst l1
  refine ⟨full, ?_, fun v => ⟨fun hv => by simpa using hkeys.1 v hv, fun hv => hkeys.2 v (by simpa using hv)⟩, ?_⟩
  · have hg : g1 = g' := by
      rw [if_neg (by simp [Fl.isInf, Fl.zero_def]), Py.bind_apply, Py.get_apply] at hs
      dsimp only at hs
      rw [ha, if_pos rfl, Py.bind_apply, Py.pure_apply] at hs
      dsimp only at hs
      rw [show ([(full, (0 : Fl))])[0]? = some (full, 0) from rfl] at hs
      dsimp only at hs
      rw [Py.bind_apply, Py.lift_apply] at hs
      rcases hv : ts.mapM fun q => Dict.getItem full q with e | vs
      · rw [hv] at hs; cases hs
      · rw [hv] at hs; cases hs; rfl
    rw [← hg]
    exact l5
  · rw [if_neg (by simp [Fl.isInf, Fl.zero_def]), Py.bind_apply, Py.get_apply] at hs
    dsimp only at hs
    rw [ha, if_pos rfl, Py.bind_apply, Py.pure_apply] at hs
    dsimp only at hs
    rw [show ([(full, (0 : Fl))])[0]? = some (full, 0) from rfl] at hs
    dsimp only at hs
    rw [Py.bind_apply, Py.lift_apply] at hs
    rcases hv : ts.mapM fun q => Dict.getItem full q with e | vs
    · rw [hv] at hs; cases hs
    · rw [hv] at hs
      cases hs
      exact picked ((mapM_ok_iff _ _ _).1 hv) []

theorem simulate1_exact {S : Type} {I : Iface S} {r : RowId} {ts : List Var} {cs ins s : Dict Var Val}
    {st : Chain S × Rng} (h : (Chain.simulate1 I r ts cs ins st).1 = .ok s) :
    (∀ v, v ∈ Dict.keys s ↔ v ∈ ts) ∧ (Dict.keys s).Nodup := by
  unfold Chain.simulate1 at h
  obtain ⟨l, _, h⟩ := Py.bind_ok h
  split at h
  · cases h
  obtain ⟨⟨ch, g⟩, _, h⟩ := Py.bind_ok h
  have key : ∀ (index : Nat) (st : Chain S × Rng), ((match l[index]? with
    | none => Py.throw .indexError
    | some (sample, _) => do
      let values ← Py.lift (ts.mapM fun q => Dict.getItem sample q)
      pure (Dict.update [] (ts.zip values)) : Py (Chain S × Rng) (Dict Var Val)) st).1 = .ok s →
      (∀ v, v ∈ Dict.keys s ↔ v ∈ ts) ∧ (Dict.keys s).Nodup := by
    intro index st h
    rcases hx : l[index]? with _ | ⟨sample, w⟩ <;> rw [hx] at h
    · cases h
    · obtain ⟨values, hv, h⟩ := Py.bind_ok h
      cases h
      have hf := (mapM_ok_iff _ _ _).1 (show ts.mapM (fun q => Dict.getItem sample q) = .ok values from hv)
      refine ⟨fun v => ?_, nodup_update' _ _ List.nodup_nil⟩
      rw [mem_keys_update, Dict.keys, Dict.keys, List.map_fst_zip hf.length_eq.le]
      simp
  dsimp only at h
  split at h
  · obtain ⟨index, _, h⟩ := Py.bind_ok h
    exact key _ _ h
  · obtain ⟨index, _, h⟩ := Py.bind_ok h
    exact key _ _ h

/-- **C88.** With any accuracy, constraints and number of samples: `simulate` returns exactly the
requested number of samples, each with exactly the targets. -/
theorem C88_exact {S : Type} {I : Iface S} {r : RowId} {ts : List Var} {cs ins : Dict Var Val}
    {N : Option Nat} {out : SimOut} {st : Chain S × Rng}
    (h : (Chain.simulate I r ts cs ins N st).1 = .ok out) : ExactSamples N ts out := by
  cases N with
  | none =>
    obtain ⟨s, hs, h⟩ := Py.bind_ok h
    cases h
    refine ⟨trivial, rfl, fun s' hs' => ?_⟩
    rw [List.mem_singleton.1 hs']
    exact simulate1_exact hs
  | some n =>
    obtain ⟨l, hl, h⟩ := Py.bind_ok h
    cases h
    have key : ∀ (xs : List Nat) (l : List (Dict Var Val)) (st : Chain S × Rng),
        (Py.mapL (fun _ => Chain.simulate1 I r ts cs ins) xs st).1 = .ok l →
        l.length = xs.length ∧ ∀ s ∈ l, (∀ v, v ∈ Dict.keys s ↔ v ∈ ts) ∧ (Dict.keys s).Nodup := by
      intro xs
      induction xs with
      | nil => intro l st h; cases h; simp
      | cons x xs ih =>
        intro l st h
        obtain ⟨s, hs, h⟩ := Py.bind_ok h
        obtain ⟨l', hl', h⟩ := Py.bind_ok h
        cases h
        obtain ⟨h1, h2⟩ := ih _ _ hl'
        refine ⟨by simp [h1], fun s' hs' => ?_⟩
        rcases List.mem_cons.1 hs' with rfl | hs'
        · exact simulate1_exact hs
        · exact h2 s' hs'
    obtain ⟨h1, h2⟩ := key _ _ _ hl
    exact ⟨trivial, h1.trans (List.length_range), h2⟩

theorem exact_returns {N : Option Nat} {t : List Var} {s : Dict Var Val} (h : ExactSamples N t (.one s)) :
    (Dict.keys s).Nodup ∧ ∀ v ∈ Dict.keys s, v ∈ t := by
  obtain ⟨-, -, h3⟩ := h
  have := h3 s (by simp [samplesOf])
  exact ⟨this.2, fun v hv => (this.1 v).1 hv⟩

/-- **C88.** Primitives, regressions and forests return what they are asked for. -/
theorem C88_simple {r : RowId} {b : Member} (hb : (∃ p : Prim, b = .tower 0 p ∧ LegallyReachable p) ∨
    (∃ m, b = .linreg m) ∨ ∃ m, b = .forest m) : ReturnsTargets memberI r b := by
  intro t i g s st _ _ hs
  rcases hb with ⟨p, rfl, hp⟩ | ⟨m, rfl⟩ | ⟨m, rfl⟩
  · have hs1 : (p.simulate r t [] i none g).1 = .ok (.one s) := by
      have e : memberI.simulate r t [] i none (.tower 0 p, g) =
        ((p.simulate r t [] i none g).1, (.tower 0 p, (p.simulate r t [] i none g).2)) := rfl
      rw [e] at hs
      exact congrArg Prod.fst hs
    by_cases hk : p.kind = .normalUC
    · cases p with
      | normalUC c =>
        obtain ⟨o, ho⟩ := hp.inv.out
        obtain ⟨u, h1, h2⟩ := Py.bind_ok hs1
        obtain ⟨o', h3, h4⟩ := Py.bind_ok h2
        have ht := simulateGuard_targets (show simulateGuard c.outputs t [] i = .ok u from h1)
        have ho' := firstOutput_ok (outs := c.outputs) ho h3
        have : ∃ x, s = [(o', x)] := by
          rcases hd : Dict.get? c.data r with _ | _ | x <;> rw [hd] at h4 <;> cases h4 <;> exact ⟨_, rfl⟩
        obtain ⟨x, rfl⟩ := this
        rw [ht, ← ho']
        simp [Dict.keys]
      | _ => cases hk
    · exact exact_returns (prim_exact hp.inv (.inr hk) hs1)
  · have hs1 : (m.simulate r t [] i none g).1 = .ok (.one s) := by
      have e : memberI.simulate r t [] i none (.linreg m, g) =
        ((m.simulate r t [] i none g).1, (.linreg m, (m.simulate r t [] i none g).2)) := rfl
      rw [e] at hs
      exact congrArg Prod.fst hs
    obtain ⟨s', h1, h2⟩ := Py.bind_ok hs1
    cases h2
    obtain ⟨u, h3, h4⟩ := Py.bind_ok h1
    obtain ⟨u', -, h5⟩ := Py.bind_ok h4
    obtain ⟨o, h6, h7⟩ := Py.bind_ok h5
    have ht : t = m.outputs := by
      rw [Py.assert_apply] at h3
      by_contra hne
      rw [if_neg hne] at h3
      cases h3
    have hx : ∃ x, s = [(o, x)] := by
      rcases hd : Dict.get? m.data r with _ | x <;> rw [hd] at h7
      · obtain ⟨_, _, h8⟩ := Py.bind_ok h7
        obtain ⟨_, _, h9⟩ := Py.bind_ok h8
        cases h9
        exact ⟨_, rfl⟩
      · cases h7; exact ⟨_, rfl⟩
    obtain ⟨x, rfl⟩ := hx
    have ho : o ∈ m.outputs := by
      cases hm : m.outputs with
      | nil => rw [hm] at h6; cases h6
      | cons a l => rw [hm] at h6; cases h6; simp
    simp [Dict.keys, ht, ho]
  · have hs1 : (m.simulate r t [] i none g).1 = .ok (.one s) := by
      have e : memberI.simulate r t [] i none (.forest m, g) =
        ((m.simulate r t [] i none g).1, (.forest m, (m.simulate r t [] i none g).2)) := rfl
      rw [e] at hs
      exact congrArg Prod.fst hs
    obtain ⟨u, h3, h4⟩ := Py.bind_ok hs1
    obtain ⟨u', -, h5⟩ := Py.bind_ok h4
    have ht : t = m.outputs := by
      rw [Py.assert_apply] at h3
      by_contra hne
      rw [if_neg hne] at h3
      cases h3
    have key : ∀ (samples : List Val) (g' : Rng), ((do
        let o ← Py.lift (firstOutput m.outputs)
        Py.lift (Forest.dictifySamples o samples none) : Py Rng SimOut) g').1 = .ok (.one s) →
        (Dict.keys s).Nodup ∧ ∀ v ∈ Dict.keys s, v ∈ t := by
      intro samples g' h
      obtain ⟨o, h6, h7⟩ := Py.bind_ok h
      have ho : o ∈ m.outputs := by
        cases hm : m.outputs with
        | nil => rw [hm] at h6; cases h6
        | cons a l => rw [hm] at h6; cases h6; simp
      unfold Forest.dictifySamples at h7
      match samples, h7 with
      | [x], h7 => cases h7; simp [Dict.keys, ht, ho]
    rcases hd : Dict.get? m.data r with _ | x <;> rw [hd] at h5
    · rcases hm : m.regressor with _ | _ | reg <;> rw [hm] at h5
      · obtain ⟨samples, _, h6⟩ := Py.bind_ok h5
        exact key _ _ h6
      · obtain ⟨samples, _, h6⟩ := Py.bind_ok h5
        exact key _ _ h6
      · obtain ⟨_, _, h6⟩ := Py.bind_ok h5
        obtain ⟨_, _, h7⟩ := Py.bind_ok h6
        obtain ⟨samples, _, h8⟩ := Py.bind_ok h7
        exact key _ _ h8
    · obtain ⟨samples, _, h6⟩ := Py.bind_ok h5
      exact key _ _ h6

/-- **C88.** So do composites of any depth for a row of which they hold nothing. -/
theorem C88_composite {Z : List Var} {n : Nat} {c : Cgpm n} (h : Tidy Z n c) {r : RowId}
    (hr : HoldsNothing (cgpmI n) c r ∨ NoNormalUC n c) : ReturnsTargets memberI r (.tower n c) := by
  intro t i g s st ht hi hs
  have hin : (cgpmI n).inputs c = [] := (cgpmTLaws Z n).inputs c (tidy_reg h)
  have hnil : i = [] := by
    cases i with
    | nil => rfl
    | cons kv i =>
      have := hi kv.1 (by simp [Dict.keys])
      change kv.1 ∈ (cgpmI n).inputs c at this
      rw [hin] at this
      cases this
  subst hnil
  have hs1 : ((cgpmI n).simulate r t [] [] none (c, g)).1 = .ok (.one s) := by
    have : Py.inside (Member.tower n) ((cgpmI n).simulate r t [] [] none) (c, g) = _ := hs
    unfold Py.inside at this
    exact congrArg Prod.fst this
  exact exact_returns (C34_exact_partial h hr ht (by simp) hs1)

theorem Concrete.chain0_draws (g : Rng) : ∃ q ch' g', Chain.simulate memberI none [7] [] Concrete.chainIns none
    (Concrete.chain0, g) = (.ok (.one [(7, .num q)]), (ch', g')) := by
  obtain ⟨x, g1, h1⟩ : ∃ x g1, Prim.simulate (.categorical (Categorical.init [1] [] [] [] 3)) none [1] [] [] none g =
      (.ok (.one [(1, x)]), g1) := by
    have : ∃ i g1, pflipIdx (Categorical.init [1] [] [] [] 3).simulateWeights g = (.ok i, g1) := by
      obtain ⟨k, g1, h, -, -⟩ := pflipIdx_ok (Categorical.init [1] [] [] [] 3).simulateWeights
        (by simp [Categorical.simulateWeights, Categorical.init, List.replicate])
        (by simp [Categorical.simulateWeights, Categorical.init]) (by
          simp [Categorical.simulateWeights, Categorical.init]; norm_num) g
      exact ⟨k, _, h⟩
    obtain ⟨i, g1, hi⟩ := this
    refine ⟨.num i, g1, ?_⟩
    have e : Prim.simulate (.categorical (Categorical.init [1] [] [] [] 3)) none [1] [] [] none g =
      ((do let i ← pflipIdx (Categorical.init [1] [] [] [] 3).simulateWeights
           pure (.one [(1, .num ((i : Nat) : ℚ))]) : Py Rng SimOut) g) := by
        change ((do let i ← pflipIdx (Categorical.init [1] [] [] [] 3).simulateWeights
                    pure ([(1, .num ((i : Nat) : ℚ))]) : Py Rng _) >>= fun s => pure (SimOut.one s)) g = _
        rw [Py.bind_apply, Py.bind_apply, Py.bind_apply, hi]; rfl
    rw [e, Py.bind_apply, hi]; rfl
  obtain ⟨out, g2, h2, h3, h4, h5⟩ := C82 Concrete.reg0_history (o := 7) rfl none
    (ins := [(2, .num 1), (1, x)]) (y := [.num 1, x, .num 0, .num 1]) rfl none g1
  obtain ⟨s, rfl⟩ := h4.2 rfl
  obtain ⟨q, rfl⟩ := (h5 s (by simp [samplesOf])).2 rfl
  have e1 : Chain.invokeCgpm memberI none [7, 1] [] Concrete.chainIns
      (.tower 0 (.categorical (Categorical.init [1] [] [] [] 3) : Prim), g) =
      (.ok ([(1, x)], 0), (.tower 0 (.categorical (Categorical.init [1] [] [] [] 3) : Prim), g1)) := by
    have e : Chain.invokeCgpm memberI none [7, 1] [] Concrete.chainIns
      (.tower 0 (.categorical (Categorical.init [1] [] [] [] 3) : Prim), g) =
       (match Prim.simulate (.categorical (Categorical.init [1] [] [] [] 3)) none [1] [] [] none g with
        | (.ok (.one s), g') => (.ok (s, 0), (.tower 0 (.categorical (Categorical.init [1] [] [] [] 3) : Prim), g'))
        | (.ok (.many s), g') => (.error .typeError, (.tower 0 (.categorical (Categorical.init [1] [] [] [] 3) : Prim), g'))
        | (.error e, g') => (.error e, (.tower 0 (.categorical (Categorical.init [1] [] [] [] 3) : Prim), g'))) := by
      have e3 : memberI.simulate none [1] [] [] none (.tower 0 (.categorical (Categorical.init [1] [] [] [] 3) : Prim), g) = ((Prim.simulate (.categorical (Categorical.init [1] [] [] [] 3)) none [1] [] [] none g).1, (.tower 0 (.categorical (Categorical.init [1] [] [] [] 3) : Prim), (Prim.simulate (.categorical (Categorical.init [1] [] [] [] 3)) none [1] [] [] none g).2)) := rfl
      change ((memberI.simulate none [1] [] [] none >>= fun out => match out with
        | .one s => pure s
        | .many _ => Py.throw .typeError) >>= fun s => pure (s, (0:Fl))) (_, g) = _
      rw [Py.bind_apply, Py.bind_apply, e3]
      rcases Prim.simulate (.categorical (Categorical.init [1] [] [] [] 3)) none [1] [] [] none g with ⟨e | s | s, g'⟩ <;> rfl
    rw [e, h1]
  have e2 : Chain.invokeCgpm memberI none [7, 1] [(1, x)] Concrete.chainIns (.linreg Concrete.reg0, g1) =
      (.ok ([(7, .num q)], 0), (.linreg Concrete.reg0, g2)) := by
    have e3 : memberI.simulate none [7] [] [(2, .num 1), (1, x)] none (.linreg Concrete.reg0, g1) =
      ((Concrete.reg0.simulate none [7] [] [(2, .num 1), (1, x)] none g1).1, (.linreg Concrete.reg0,
        (Concrete.reg0.simulate none [7] [] [(2, .num 1), (1, x)] none g1).2)) := rfl
    change ((memberI.simulate none [7] [] [(2, .num 1), (1, x)] none >>= fun out => match out with
        | .one s => pure s
        | .many _ => Py.throw .typeError) >>= fun s => pure (s, (0:Fl))) (_, g1) = _
    rw [Py.bind_apply, Py.bind_apply, e3, h2]
    rfl
  have e4 : Chain.levels memberI none [7, 1] Concrete.chainIns [0, 1] [] 0 (Concrete.chain0.cgpms, g) =
      (.ok ([(1, x), (7, .num q)], 0 + 0 + 0), (Concrete.chain0.cgpms, g2)) := by
    unfold Chain.levels
    have a1 : Py.atIndex 0 (Chain.invokeCgpm memberI none [7, 1] [] Concrete.chainIns) (Concrete.chain0.cgpms, g) =
        (.ok ([(1, x)], 0), (Concrete.chain0.cgpms, g1)) := by
      unfold Py.atIndex
      rw [show Concrete.chain0.cgpms = Concrete.chainMembers from rfl]
      dsimp only [Concrete.chainMembers]
      rw [List.getElem?_cons_zero]
      dsimp only
      rw [e1]
      rfl
    rw [Py.bind_apply, a1]
    dsimp only
    unfold Chain.levels
    have a2 : Py.atIndex 1 (Chain.invokeCgpm memberI none [7, 1] [(1, x)] Concrete.chainIns)
        (Concrete.chain0.cgpms, g1) = (.ok ([(7, .num q)], 0), (Concrete.chain0.cgpms, g2)) := by
      unfold Py.atIndex
      rw [show Concrete.chain0.cgpms = Concrete.chainMembers from rfl]
      dsimp only [Concrete.chainMembers]
      rw [List.getElem?_cons_succ, List.getElem?_cons_zero]
      dsimp only
      rw [e2]
      rfl
    rw [Py.bind_apply, show Dict.update ([] : Dict Var Val) [(1, x)] = [(1, x)] from rfl, a2]
    rfl
  have e5 : Chain.weightedSample memberI none [7] [] Concrete.chainIns (Concrete.chain0, g) =
      (.ok ([(1, x), (7, .num q)], 0 + 0 + 0), (Concrete.chain0, g2)) := by
    change (Py.onAttr Chain.cgpms (fun c l => { c with cgpms := l })
      (Chain.levels memberI none [7, 1] Concrete.chainIns [0, 1] [] 0) >>= _) (Concrete.chain0, g) = _
    rw [Py.bind_apply]
    unfold Py.onAttr
    dsimp only
    rw [e4]
    rfl
  refine ⟨q, Concrete.chain0, g2, ?_⟩
  change (Chain.simulate1 memberI none [7] [] Concrete.chainIns >>= _) _ = _
  rw [Py.bind_apply]
  unfold Chain.simulate1
  rw [Py.bind_apply]
  have e6 : Chain.weightedSamples memberI none [7] [] Concrete.chainIns (Concrete.chain0, g) =
      (.ok [([(1, x), (7, .num q)], 0 + 0 + 0)], (Concrete.chain0, g2)) := by
    change (Chain.weightedSample memberI none [7] [] Concrete.chainIns >>= fun y => pure [y]) (Concrete.chain0, g) = _
    rw [Py.bind_apply, e5]
    rfl
  rw [e6]
  dsimp only
  rw [if_neg (by rw [add_zero, add_zero]; simp [Fl.isInf, Fl.zero_def])]
  rfl

example (g : Rng) : ∃ q ch' g', Chain.simulate memberI none [7] [] Concrete.chainIns none
    (Concrete.chain0, g) = (.ok (.one [(7, .num q)]), (ch', g')) ∧
    (∀ b ∈ Concrete.chain0.cgpms, ReturnsTargets memberI none b) ∧ Concrete.chain0.accuracy = 1 := by
  obtain ⟨q, ch', g', h⟩ := Concrete.chain0_draws g
  refine ⟨q, ch', g', h, fun b hb => ?_, rfl⟩
  rcases Concrete.chain0_mem hb with rfl | rfl
  · exact C88_simple (.inl ⟨_, rfl, Concrete.cat0_legally⟩)
  · exact C88_simple (.inr (.inl ⟨_, rfl⟩))

end Props
end Cgpm2
