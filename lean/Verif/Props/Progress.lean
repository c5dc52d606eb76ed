import Verif.Lemmas.Progress

/-!
# Property C47: the number of kernels run by transition_generic
-/

namespace Cgpm2.Props
open Spec Progress

variable {σ : Type}

/-- C47: without a time limit and for N ≥ 1, `transition_generic` ends, has one outcome whatever
the clock shows, and that is the outcome of running the kernels in order, N sweeps over the
list (up to the first exception). -/
theorem C47_sweeps (kernels : List (Py σ Unit)) (N : Nat) (hN : 1 ≤ N) (w : World σ) :
    ∃ r, TransitionGeneric kernels (some N) none w r ∧
      (∀ r', TransitionGeneric kernels (some N) none w r' → r' = r) ∧
      (r.1, r.2.state) = inOrder (sweeps N kernels) w.state := by
  by_cases hk : kernels = []
  · subst hk
    refine ⟨_, loop_nil.2 rfl, fun r' h => loop_nil.1 h, ?_⟩
    rw [inOrder_sweeps_nil]
  · have hl := List.length_pos_of_ne_nil hk
    obtain ⟨r, h1, h2, h3⟩ := loop_run (N := some (N : Int)) (S := none) (start := w.clock 0) kernels hk
      N 0 hl 0 (w.wait 1)
      (fun a ha j _ => ⟨fun n hn => by cases hn; omega, fun s h => (nomatch h)⟩)
      (fun j hj => by omega)
      ⟨fun n hn => by cases hn; omega, fun s h => (nomatch h), .inl ⟨N, rfl, by omega⟩⟩
    refine ⟨r, h1, h2, ?_⟩
    rw [h3]
    simp only [List.take_zero, List.append_nil]
    rfl

/-- C47: when neither N nor S is given every kernel is run once. -/
theorem C47_default (kernels : List (Py σ Unit)) (w : World σ) :
    ∃ r, TransitionGeneric kernels none none w r ∧
      (∀ r', TransitionGeneric kernels none none w r' → r' = r) ∧
      (r.1, r.2.state) = inOrder kernels w.state := by
  obtain ⟨r, h1, h2, h3⟩ := C47_sweeps kernels 1 le_rfl w
  refine ⟨r, h1, h2, ?_⟩
  rw [h3]
  simp [sweeps]

/-- C47, with a time limit S: when the clock, read before each kernel, shows S seconds for the
first time at reading `m`, the kernels run are the first `m` in round-robin order, unless the N
sweeps are over earlier. -/
theorem C47_time (kernels : List (Py σ Unit)) (hk : kernels ≠ []) (N : Option Nat) (S : ℝ)
    (hS : 0 < S) (w : World σ) (m : Nat)
    (hbefore : ∀ j < m, w.clock (j + 1) - w.clock 0 < S) (hafter : S ≤ w.clock (m + 1) - w.clock 0)
    (hN : ∀ n, N = some n → m < n * kernels.length) :
    ∃ r, TransitionGeneric kernels (N.map Int.ofNat) (some S) w r ∧
      (∀ r', TransitionGeneric kernels (N.map Int.ofNat) (some S) w r' → r' = r) ∧
      (r.1, r.2.state) = inOrder (roundRobin m kernels) w.state := by
  have hl := List.length_pos_of_ne_nil hk
  have hd := Nat.div_add_mod m kernels.length
  have hd' : m / kernels.length * kernels.length + m % kernels.length = m := by
    rw [Nat.mul_comm]; exact hd
  have hpos : ∀ n : Int, N.map Int.ofNat = some n → 0 < n := by
    intro n hn
    obtain ⟨k, hk', rfl⟩ := Option.map_eq_some_iff.1 hn
    have h1 := hN k hk'
    have : k ≠ 0 := by rintro rfl; simp at h1
    exact Int.natCast_pos.2 (Nat.pos_of_ne_zero this)
  have hlt : ∀ n : Int, N.map Int.ofNat = some n → ((m / kernels.length : Nat) : Int) < n := by
    intro n hn
    obtain ⟨k, hk', rfl⟩ := Option.map_eq_some_iff.1 hn
    have := (Nat.div_lt_iff_lt_mul hl).2 (hN k hk')
    exact Int.ofNat_lt.2 this
  have hT : TransitionGeneric kernels (N.map Int.ofNat) (some S) w =
      Loop (N.map Int.ofNat) (some S) (w.clock 0) kernels 0 (w.wait 1) := by
    cases N <;> rfl
  rw [hT]
  obtain ⟨r, h1, h2, h3⟩ := loop_run (N := N.map Int.ofNat) (S := some S)
    (start := w.clock 0) kernels hk (m / kernels.length) (m % kernels.length) (Nat.mod_lt _ hl) 0
    (w.wait 1)
    (fun a ha j hj => ⟨fun n hn => ⟨hpos n hn, by have := hlt n hn; omega⟩, fun s hs => by
      cases hs
      refine ⟨hS, ?_⟩
      have : a * kernels.length + j < m := by
        have h4 : (a + 1) * kernels.length ≤ m / kernels.length * kernels.length :=
          Nat.mul_le_mul_right _ ha
        have h5 : (a + 1) * kernels.length = a * kernels.length + kernels.length := by ring
        omega
      simpa [World.wait, used] using hbefore _ this⟩)
    (fun j hj => ⟨fun n hn => ⟨hpos n hn, by have := hlt n hn; omega⟩, fun s hs => by
      cases hs
      refine ⟨hS, ?_⟩
      have : m / kernels.length * kernels.length + j < m := by omega
      simpa [World.wait, used] using hbefore _ this⟩)
    ⟨hpos, fun s hs => by cases hs; exact hS, .inr ⟨S, rfl, by
      simpa [World.wait, used, hd'] using hafter⟩⟩
  refine ⟨r, h1, h2, ?_⟩
  rw [h3, roundRobin]
  rcases Nat.eq_zero_or_pos m with h0 | h0
  · subst h0; simp [sweeps]; rfl
  · rcases Nat.lt_or_ge (m / kernels.length) m with h6 | h6
    · rw [← take_sweeps kernels (m / kernels.length) (m % kernels.length) m (Nat.mod_lt _ hl).le h6, hd']
      rfl
    · have h7 : kernels.length = 1 := by
        by_contra hne
        have := Nat.div_lt_self h0 (show 1 < kernels.length by omega)
        omega
      have h8 : m / kernels.length = m := by rw [h7, Nat.div_one]
      have h9 : m % kernels.length = 0 := by rw [h7, Nat.mod_one]
      rw [h8, h9]
      have : (sweeps m kernels).length = m := by rw [length_sweeps, h7, Nat.mul_one]
      rw [List.take_of_length_le this.le]
      simp only [List.take_zero, List.append_nil]
      rfl

/-- C47 fails for N = 0: the call raises ZeroDivisionError instead of running no sweep. -/
theorem C47_zero_violated (kernels : List (Py σ Unit)) (hk : kernels ≠ []) (w : World σ)
    (r : Except Err Unit × World σ) (h : TransitionGeneric kernels (some 0) none w r) :
    r = (.error .zeroDivision, w.wait 1) := by
  obtain ⟨k, ks, rfl⟩ := List.exists_cons_of_ne_nil hk
  have h2 : sweep (some 0) none 0 (w.clock 0) (k :: ks) (w.wait 1) =
      (.error .zeroDivision, w.wait 1) := by
    have : proportionDone (some 0) none 0 (w.clock 0) (w.wait 1) =
        (.error .zeroDivision, w.wait 1) := by
      simp only [proportionDone, Py.bind_apply, Py.lift_apply, Py.pure_apply, floatDiv, Int.cast_zero,
        if_true]
    rw [sweep, Py.bind_apply, this]
  change Loop (some 0) none (w.clock 0) (k :: ks) 0 (w.wait 1) r at h
  cases h with
  | empty h => exact absurd h hk
  | leave _ h => rw [h2] at h; cases h
  | again _ h => rw [h2] at h; cases h
  | raise _ h => rw [h2] at h; cases h; rfl

/-- Two kernels that write their names, run for two sweeps. -/
example : ∃ r, TransitionGeneric (σ := List Nat)
      [fun l => (.ok (), l ++ [0]), fun l => (.ok (), l ++ [1])] (some 2) none ⟨[], fun _ => 7⟩ r ∧
    r.2.state = [0, 1, 0, 1] := by
  obtain ⟨r, h1, -, h3⟩ := C47_sweeps (σ := List Nat)
    [fun l => (.ok (), l ++ [0]), fun l => (.ok (), l ++ [1])] 2 (by norm_num) ⟨[], fun _ => 7⟩
  exact ⟨r, h1, congrArg Prod.snd h3⟩

/-- Two kernels that write their names, and a clock that goes forward a second at a time. -/
example : ∃ r, TransitionGeneric (σ := List Nat)
      [fun l => (.ok (), l ++ [0]), fun l => (.ok (), l ++ [1])] none (some 4)
      ⟨[], fun i => (i : ℝ)⟩ r ∧ r.2.state = [0, 1, 0] := by
  obtain ⟨r, h1, -, h3⟩ := C47_time (σ := List Nat)
    [fun l => (.ok (), l ++ [0]), fun l => (.ok (), l ++ [1])] (by simp) none 4 (by norm_num)
    ⟨[], fun i => (i : ℝ)⟩ 3
    (by
      intro j hj
      have : (j : ℝ) < 3 := by exact_mod_cast hj
      simp only [Nat.cast_add, Nat.cast_one, Nat.cast_zero]
      linarith) (by norm_num) (by simp)
  exact ⟨r, h1, congrArg Prod.snd h3⟩

end Cgpm2.Props
