import Verif.Model.Progress
import Verif.Spec.Progress

/-!
# The kernels run by transition_generic (helpers)
-/

namespace Cgpm2.Progress
open Spec

variable {σ : Type}

theorem inOrder_append (a b : List (Py σ Unit)) (s : σ) :
    inOrder (a ++ b) s = match inOrder a s with
      | (.ok (), s') => inOrder b s'
      | (.error e, s') => (.error e, s') := by
  induction a generalizing s with
  | nil => rfl
  | cons k a ih =>
    simp only [List.cons_append, inOrder]
    rcases k s with ⟨r, s'⟩
    cases r with
    | error e => rfl
    | ok u => exact ih s'

theorem sweeps_succ {α : Type} (n : Nat) (l : List α) : sweeps (n + 1) l = l ++ sweeps n l := by
  simp [sweeps, List.replicate_succ]

theorem length_sweeps {α : Type} (n : Nat) (l : List α) : (sweeps n l).length = n * l.length := by
  simp [sweeps]

/-- The check before a kernel passes. -/
def Go (N : Option Int) (S : Option ℝ) (start : ℝ) (i : Nat) (t : ℝ) : Prop :=
  (∀ n, N = some n → 0 < n ∧ (i : Int) < n) ∧ ∀ s, S = some s → 0 < s ∧ t - start < s

/-- The check before a kernel fails. -/
def Stop (N : Option Int) (S : Option ℝ) (start : ℝ) (i : Nat) (t : ℝ) : Prop :=
  (∀ n, N = some n → 0 < n) ∧ (∀ s, S = some s → 0 < s) ∧
    ((∃ n, N = some n ∧ n ≤ i) ∨ ∃ s, S = some s ∧ s ≤ t - start)

/-- The number of readings a check takes. -/
def used (S : Option ℝ) : Nat := if S.isSome then 1 else 0

/-- The world after `k` checks. -/
def World.wait (w : World σ) (k : Nat) : World σ := { w with clock := fun i => w.clock (i + k) }

theorem floatDiv_pos {x y : ℝ} (h : 0 < y) : floatDiv x y = .ok (x / y) := if_neg h.ne'

theorem time_apply (w : World σ) : World.time w = (.ok (w.clock 0), w.wait 1) := rfl

theorem proportionDone_eq {N : Option Int} {S : Option ℝ} {start : ℝ} {i : Nat} {w : World σ}
    (hN : ∀ n, N = some n → 0 < n) (hS : ∀ s, S = some s → 0 < s) :
    proportionDone N S i start w =
      (.ok (max ((N.map fun n => (i : ℝ) / n).getD 0)
        ((S.map fun s => (w.clock 0 - start) / s).getD 0)), w.wait (used S)) := by
  rcases N with _ | n <;> rcases S with _ | s
  · rfl
  · have hs := hS s rfl
    simp only [proportionDone, Py.bind_apply, time_apply, Py.lift_apply, floatDiv_pos hs]
    rfl
  · have hn : (0 : ℝ) < n := by exact_mod_cast hN n rfl
    simp only [proportionDone, Py.bind_apply, Py.lift_apply, floatDiv_pos hn, Py.pure_apply]
    rfl
  · have hs := hS s rfl
    have hn : (0 : ℝ) < n := by exact_mod_cast hN n rfl
    simp only [proportionDone, Py.bind_apply, time_apply, Py.lift_apply, floatDiv_pos hs,
      floatDiv_pos hn]
    rfl

theorem proportionDone_go {N : Option Int} {S : Option ℝ} {start : ℝ} {i : Nat} {w : World σ}
    (h : Go N S start i (w.clock 0)) :
    ∃ p, p < 1 ∧ proportionDone N S i start w = (.ok p, w.wait (used S)) := by
  refine ⟨_, ?_, proportionDone_eq (fun n hn => (h.1 n hn).1) fun s hs => (h.2 s hs).1⟩
  rw [max_lt_iff]
  constructor
  · rcases N with _ | n
    · simp
    · have := h.1 n rfl
      have hn : (0 : ℝ) < n := by exact_mod_cast this.1
      change (i : ℝ) / (n : ℝ) < 1
      rw [div_lt_one hn]
      exact_mod_cast this.2
  · rcases S with _ | s
    · simp
    · change (w.clock 0 - start) / s < 1
      rw [div_lt_one (h.2 s rfl).1]
      exact (h.2 s rfl).2

theorem proportionDone_stop {N : Option Int} {S : Option ℝ} {start : ℝ} {i : Nat} {w : World σ}
    (h : Stop N S start i (w.clock 0)) :
    ∃ p, 1 ≤ p ∧ proportionDone N S i start w = (.ok p, w.wait (used S)) := by
  refine ⟨_, ?_, proportionDone_eq h.1 h.2.1⟩
  rw [le_max_iff]
  rcases h.2.2 with ⟨n, rfl, hn⟩ | ⟨s, rfl, hs⟩
  · left
    have h0 : (0 : ℝ) < n := by exact_mod_cast h.1 n rfl
    change 1 ≤ (i : ℝ) / (n : ℝ)
    rw [one_le_div h0]
    exact_mod_cast hn
  · right
    change 1 ≤ (w.clock 0 - start) / s
    rwa [one_le_div (h.2.1 s rfl)]

theorem wait_wait (w : World σ) (a b : Nat) : (w.wait a).wait b = w.wait (b + a) := by
  unfold World.wait
  simp only [Nat.add_assoc]

/-- A sweep whose checks all pass. -/
theorem sweep_go {N : Option Int} {S : Option ℝ} {start : ℝ} {i : Nat} (ks : List (Py σ Unit))
    (w : World σ) (h : ∀ j < ks.length, Go N S start i (w.clock (j * used S))) :
    (∀ e s', inOrder ks w.state = (.error e, s') →
      ∃ w', sweep N S i start ks w = (.error e, w') ∧ w'.state = s') ∧
    (∀ s', inOrder ks w.state = (.ok (), s') →
      sweep N S i start ks w = (.ok true, ({ w with state := s' } : World σ).wait (ks.length * used S))) := by
  induction ks generalizing w with
  | nil =>
    refine ⟨fun e s' he => ?_, fun s' he => ?_⟩
    · cases he
    · cases he
      simp [sweep, World.wait]
  | cons k ks ih =>
    obtain ⟨p, hp, hd⟩ := proportionDone_go (w := w) (by simpa using h 0 (by simp))
    have hsw : sweep N S i start (k :: ks) w = ((do
        World.call k
        sweep N S i start ks) : Py (World σ) Bool) (w.wait (used S)) := by
      rw [sweep, Py.bind_apply, hd]
      simp only [not_le.2 hp, if_false]
    rw [hsw, Py.bind_apply]
    simp only [inOrder]
    have hcall : World.call k (w.wait (used S)) = ((k w.state).1, ({ w with state := (k w.state).2 } : World σ).wait (used S)) := rfl
    rw [hcall]
    rcases hk : k w.state with ⟨r, s1⟩
    cases r with
    | error e1 =>
      refine ⟨fun e s' he => ?_, fun s' he => ?_⟩
      · simp only [Prod.mk.injEq, Except.error.injEq] at he
        obtain ⟨rfl, rfl⟩ := he
        exact ⟨_, rfl, rfl⟩
      · simp at he
    | ok u =>
      have := ih (({ w with state := s1 } : World σ).wait (used S)) (fun j hj => by
        have := h (j + 1) (by simpa using hj)
        simp only [World.wait]
        convert this using 2
        ring)
      refine ⟨fun e s' he => this.1 e s' he, fun s' he => ?_⟩
      dsimp only
      rw [this.2 s' he]
      simp only [World.wait, List.length_cons]
      congr 2
      funext j
      congr 1
      ring

/-- A sweep left after `m` kernels. -/
theorem sweep_stop {N : Option Int} {S : Option ℝ} {start : ℝ} {i : Nat} (ks : List (Py σ Unit))
    (m : Nat) (hm : m < ks.length) (w : World σ)
    (h : ∀ j < m, Go N S start i (w.clock (j * used S)))
    (hs : Stop N S start i (w.clock (m * used S))) :
    ∃ w', w'.state = (inOrder (ks.take m) w.state).2 ∧
      sweep N S i start ks w = ((inOrder (ks.take m) w.state).1.map fun _ => false, w') := by
  induction ks generalizing w m with
  | nil => simp at hm
  | cons k ks ih =>
    rcases m with _ | m
    · obtain ⟨p, hp, hd⟩ := proportionDone_stop (w := w) (by simpa using hs)
      refine ⟨w.wait (used S), rfl, ?_⟩
      rw [sweep, Py.bind_apply, hd]
      simp only [hp, if_true]
      rfl
    · obtain ⟨p, hp, hd⟩ := proportionDone_go (w := w) (by simpa using h 0 (by simp))
      have hsw : sweep N S i start (k :: ks) w = ((do
          World.call k
          sweep N S i start ks) : Py (World σ) Bool) (w.wait (used S)) := by
        rw [sweep, Py.bind_apply, hd]
        simp only [not_le.2 hp, if_false]
      rw [hsw, Py.bind_apply]
      simp only [inOrder, List.take_succ_cons]
      have hcall : World.call k (w.wait (used S)) = ((k w.state).1, ({ w with state := (k w.state).2 } : World σ).wait (used S)) := rfl
      rw [hcall]
      rcases hk : k w.state with ⟨r, s1⟩
      cases r with
      | error e1 => exact ⟨_, rfl, rfl⟩
      | ok u =>
        refine ih m (by simpa using hm) (({ w with state := s1 } : World σ).wait (used S)) (fun j hj => ?_) ?_
        · have := h (j + 1) (by simpa using hj)
          simp only [World.wait]
          convert this using 2
          ring
        · simp only [World.wait]
          convert hs using 2
          ring

/-- The loop left after `q` sweeps and `m` kernels. -/
theorem loop_run {N : Option Int} {S : Option ℝ} {start : ℝ} (ks : List (Py σ Unit)) (hk : ks ≠ [])
    (q m : Nat) (hm : m < ks.length) (i : Nat) (w : World σ)
    (h : ∀ a < q, ∀ j < ks.length, Go N S start (i + a) (w.clock ((a * ks.length + j) * used S)))
    (h' : ∀ j < m, Go N S start (i + q) (w.clock ((q * ks.length + j) * used S)))
    (hs : Stop N S start (i + q) (w.clock ((q * ks.length + m) * used S))) :
    ∃ r, Loop N S start ks i w r ∧ (∀ r', Loop N S start ks i w r' → r' = r) ∧
      (r.1, r.2.state) = inOrder (sweeps q ks ++ ks.take m) w.state := by
  induction q generalizing i w with
  | zero =>
    obtain ⟨w', h1, h2⟩ := sweep_stop ks m hm w (by simpa using h') (by simpa using hs)
    rcases hr : (inOrder (ks.take m) w.state) with ⟨_ | u, s'⟩
    · rename_i e
      rw [hr] at h1 h2
      refine ⟨(.error e, w'), .raise hk h2, fun r' hr' => ?_, ?_⟩
      · cases hr' with
        | empty h => exact absurd h hk
        | leave _ h => rw [h2] at h; cases h
        | again _ h => rw [h2] at h; cases h
        | raise _ h => rw [h2] at h; cases h; rfl
      · simp [sweeps, hr, h1]
    · rw [hr] at h1 h2
      refine ⟨(.ok (), w'), .leave hk h2, fun r' hr' => ?_, ?_⟩
      · cases hr' with
        | empty h => exact absurd h hk
        | leave _ h => rw [h2] at h; cases h; rfl
        | again _ h => rw [h2] at h; cases h
        | raise _ h => rw [h2] at h; cases h
      · simp [sweeps, hr, h1]
  | succ q ih =>
    obtain ⟨g1, g2⟩ := sweep_go ks w (fun j hj => by simpa using h 0 (by simp) j hj)
    rw [sweeps_succ, List.append_assoc, inOrder_append]
    rcases hr : inOrder ks w.state with ⟨_ | u, s'⟩
    · rename_i e
      obtain ⟨w', h2, h1⟩ := g1 e s' hr
      refine ⟨(.error e, w'), .raise hk h2, fun r' hr' => ?_, ?_⟩
      · cases hr' with
        | empty h => exact absurd h hk
        | leave _ h => rw [h2] at h; cases h
        | again _ h => rw [h2] at h; cases h
        | raise _ h => rw [h2] at h; cases h; rfl
      · simp [h1]
    · have h2 := g2 s' hr
      obtain ⟨r, k1, k2, k3⟩ := ih (i + 1) (({ w with state := s' } : World σ).wait (ks.length * used S))
        (fun a ha j hj => by
          have := h (a + 1) (by omega) j hj
          rw [show i + (a + 1) = i + 1 + a by omega, show ((a + 1) * ks.length + j) * used S =
            (a * ks.length + j) * used S + ks.length * used S by ring] at this
          exact this)
        (fun j hj => by
          have := h' j hj
          rw [show i + (q + 1) = i + 1 + q by omega, show ((q + 1) * ks.length + j) * used S =
            (q * ks.length + j) * used S + ks.length * used S by ring] at this
          exact this)
        (by
          rw [show i + (q + 1) = i + 1 + q by omega, show ((q + 1) * ks.length + m) * used S =
            (q * ks.length + m) * used S + ks.length * used S by ring] at hs
          exact hs)
      refine ⟨r, .again hk h2 k1, fun r' hr' => ?_, k3⟩
      cases hr' with
      | empty h => exact absurd h hk
      | leave _ h => rw [h2] at h; cases h
      | again _ h hl => rw [h2] at h; cases h; exact k2 r' hl
      | raise _ h => rw [h2] at h; cases h

theorem loop_nil {N : Option Int} {S : Option ℝ} {start : ℝ} {i : Nat} {w : World σ}
    {r : Except Err Unit × World σ} : Loop N S start [] i w r ↔ r = (.ok (), w) := by
  constructor
  · intro h
    cases h with
    | empty _ => rfl
    | leave hk _ => exact absurd rfl hk
    | again hk _ _ => exact absurd rfl hk
    | raise hk _ => exact absurd rfl hk
  · rintro rfl
    exact .empty rfl

theorem inOrder_sweeps_nil (n : Nat) (s : σ) : inOrder (sweeps n ([] : List (Py σ Unit))) s = (.ok (), s) := by
  simp [sweeps, inOrder]

theorem take_sweeps {α : Type} (l : List α) (q m n : Nat) (hm : m ≤ l.length) (hn : q < n) :
    (sweeps n l).take (q * l.length + m) = sweeps q l ++ l.take m := by
  induction q generalizing n with
  | zero =>
    obtain ⟨n, rfl⟩ : ∃ k, n = k + 1 := ⟨n - 1, by omega⟩
    rw [sweeps_succ, Nat.zero_mul, Nat.zero_add, List.take_append_of_le_length hm]
    rfl
  | succ q ih =>
    obtain ⟨n, rfl⟩ : ∃ k, n = k + 1 := ⟨n - 1, by omega⟩
    rw [sweeps_succ, sweeps_succ, List.append_assoc, ← ih n (by omega)]
    rw [show (q + 1) * l.length + m = l.length + (q * l.length + m) by ring, List.take_length_add_append]

end Cgpm2.Progress
