import Verif.Lemmas.SweepLaw
import Verif.Lemmas.Ergodic

/-!
# A sweep over all rows of a view can lead to every clustering (helpers)
-/

namespace Cgpm2.Views
open Spec Cpp MeasureTheory

variable {Z : List Var} {v u w : View} {T : View → Prop} {μ : Measure Draw} [IsProbabilityMeasure μ] {vs : List View}

theorem Reps.classes (h : Reps T Z v vs) : Classes (Fit T Z v) SamePartition vs :=
  ⟨fun _ _ _ => Iff.rfl, fun _ _ => SamePartition.symm', fun _ _ _ => SamePartition.trans', h.each, h.once, h.all⟩

theorem Stage.weighs (hs : Stage T Z v vs) (r : RowId) : Weighs (Fit T Z v) SamePartition vs joint (SameApart r) :=
  ⟨fun u hu => (joint_ne (hs.reps.each u hu)).1, fun u hu => (joint_ne (hs.reps.each u hu)).2,
    fun _ => ⟨fun _ => Iff.rfl, fun _ _ _ _ => Iff.rfl⟩, fun _ _ => SameApart.symm', fun _ _ _ => SameApart.trans',
    fun _ _ h => SamePartition.apart h r⟩

/-- The rows in `done` are as in `w`, and in clusters of their own. -/
def Settled (w : View) (done : List RowId) (u : View) : Prop :=
  ∀ a ∈ done, ∀ b, Mates u a b ↔ b ∈ done ∧ Mates w a b

theorem Settled.same {done : List RowId} {x : View} (h : Settled w done u) (e : SamePartition u x) : Settled w done x :=
  fun a ha b => (e a b).symm.trans (h a ha b)

theorem settle_row (hμ : IsDraw μ) (hs : Stage T Z v vs) (hu : Fit T Z v u) (hw : Fit T Z v w) {r : RowId} (hr : Mates v r r)
    {done : List RowId} (hd : Settled w done u) (hn : r ∉ done) :
    ∃ x ∈ vs, SameApart r u x ∧ Settled w (r :: done) x := by
  obtain ⟨supp, s, y, z, st⟩ := hs.step hu hr
  have hru := (hu.rows r).1 hr
  have hrw := (hw.rows r).1 hr
  suffices h : ∃ k ∈ supp, ∀ b, b ≠ r → (clusterOf u b = some (.num (k : ℚ)) ↔ b ∈ done ∧ Mates w r b) by
    obtain ⟨k, hk, hkb⟩ := h
    obtain ⟨x, hx, e⟩ := hs.reps.all _ (hs.fit hμ hu hr st k hk)
    refine ⟨x, hx, SameApart.trans' (st.apart hu.reg hru hk) (SamePartition.apart e r), Settled.same ?_ e⟩
    have h1 : ∀ b, Mates (s k) r b ↔ b ∈ r :: done ∧ Mates w r b := fun b => by
      by_cases hb : b = r
      · subst hb
        exact ⟨fun _ => ⟨List.mem_cons_self, hrw⟩, fun _ => st.self hk⟩
      · rw [st.mates hk hb, hkb b hb, List.mem_cons]
        simp [hb]
    intro a ha b
    rcases List.mem_cons.1 ha with rfl | ha'
    · exact h1 b
    · have har : a ≠ r := fun h => hn (h ▸ ha')
      by_cases hb : b = r
      · subst hb
        refine ⟨fun h => ⟨List.mem_cons_self, Mates.symm' ((h1 a).1 (Mates.symm' h)).2⟩, fun h => ?_⟩
        exact Mates.symm' ((h1 a).2 ⟨ha, Mates.symm' h.2⟩)
      · rw [st.others hu.reg hk har hb, hd a ha' b, List.mem_cons]
        simp [hb]
  by_cases h : ∃ a ∈ done, Mates w r a
  · obtain ⟨a, ha, hma⟩ := h
    have har : a ≠ r := fun h => hn (h ▸ ha)
    obtain ⟨κ, hκ, -⟩ := (mates_iff hu.reg a a).1 ((hd a ha a).2 ⟨ha, Mates.trans' (Mates.symm' hma) hma⟩)
    obtain ⟨j, hj, rfl⟩ := st.occupied a har κ hκ
    refine ⟨j, hj, fun b hb => ?_⟩
    have e : clusterOf u b = some (.num (j : ℚ)) ↔ Mates u a b := by
      rw [mates_iff hu.reg]
      constructor
      · exact fun h => ⟨_, hκ, h⟩
      · rintro ⟨k', h1, h2⟩
        rw [h2, ← h1, hκ]
    rw [e, hd a ha b]
    exact ⟨fun h => ⟨h.1, Mates.trans' hma h.2⟩, fun h => ⟨h.1, Mates.trans' (Mates.symm' hma) h.2⟩⟩
  · obtain ⟨f, hf, h1, -⟩ := st.fresh
    exact ⟨f, hf, fun b hb => ⟨fun hc => absurd hc (h1 b hb), fun hm => absurd ⟨b, hm⟩ h⟩⟩

theorem rows_reach (hμ : IsDraw μ) (hs : Stage T Z v vs) (hw : w ∈ vs) {l : List RowId} (hl : ∀ r ∈ l, Mates v r r)
    {done : List RowId} (hn : l.Nodup) (hdl : ∀ r ∈ l, r ∉ done) (hall : ∀ r, Mates v r r → r ∈ done ∨ r ∈ l)
    (hu : Fit T Z v u) (hd : Settled w done u) :
    kernels (fun r => resample vs joint (SameApart r)) l u (ind SamePartition w) ≠ 0 := by
  induction l generalizing done u with
  | nil =>
    have hin : ∀ r, Mates v r r → r ∈ done := fun r hr => (hall r hr).resolve_right (by simp)
    have hfw := hs.reps.each w hw
    have : SamePartition u w := by
      intro a b
      by_cases ha : a ∈ done
      · rw [hd a ha b]
        exact ⟨fun h => h.2, fun h => ⟨hin b ((hfw.rows b).2 (Mates.trans' (Mates.symm' h) h)), h⟩⟩
      · exact ⟨fun h => absurd (hin a ((hu.rows a).2 (Mates.trans' h (Mates.symm' h)))) ha,
          fun h => absurd (hin a ((hfw.rows a).2 (Mates.trans' h (Mates.symm' h)))) ha⟩
    change ind SamePartition w u ≠ 0
    simp [ind, this]
  | cons r l ih =>
    obtain ⟨x, hx, hA, hd'⟩ := settle_row hμ hs hu (hs.reps.each w hw) (hl r List.mem_cons_self) hd (hdl r List.mem_cons_self)
    refine (hs.weighs r).reach hs.reps.classes hu hx hA ?_
    rw [List.nodup_cons] at hn
    refine ih (fun r hr => hl r (List.mem_cons_of_mem _ hr)) hn.2 (fun a ha => ?_) (fun a ha => ?_) (hs.reps.each x hx) hd'
    · rw [List.mem_cons, not_or]
      exact ⟨fun e => hn.1 (e ▸ ha), hdl a (List.mem_cons_of_mem _ ha)⟩
    · rcases hall a ha with h | h
      · exact .inl (List.mem_cons_of_mem _ h)
      · rcases List.mem_cons.1 h with rfl | h
        · exact .inl List.mem_cons_self
        · exact .inr h

theorem sweep_reach (hμ : IsDraw μ) (hs : Stage T Z v vs) (hw : w ∈ vs) {l : List RowId} (hn : l.Nodup)
    (hl : ∀ r, r ∈ l ↔ Mates v r r) (hu : Fit T Z v u) : sweepKernel vs l u (ind SamePartition w) ≠ 0 := by
  have h : ∀ l' : List RowId, l'.Perm l →
      kernels (fun r => resample vs joint (SameApart r)) l' u (ind SamePartition w) ≠ 0 := fun l' hl' =>
    rows_reach hμ hs hw (done := []) (fun r hr => (hl r).1 (hl'.mem_iff.1 hr)) (hl'.nodup_iff.2 hn) (fun _ _ h => by cases h)
      (fun r hr => .inr (hl'.mem_iff.2 ((hl r).2 hr))) hu (fun _ h => by cases h)
  unfold sweepKernel
  rcases hlen : l.length with _ | n
  · exact h l (.refl l)
  · exact overOrders_ne_zero hlen h

theorem sweep_linear (hμ : IsDraw μ) (hs : Stage T Z v vs) {l : List RowId} (hl : ∀ r ∈ l, Mates v r r) :
    Linear (Fit T Z v) SamePartition vs (sweepKernel vs l) ∧ Stoch (Fit T Z v) (sweepKernel vs l) := by
  have hlin : ∀ r, Linear (Fit T Z v) SamePartition vs (resample vs joint (SameApart r)) := fun r =>
    Linear.resample hs.reps.classes
  constructor
  · exact Linear.overOrders (K := fun l' => kernels (fun r => resample vs joint (SameApart r)) l') fun l' hl' =>
      (Linear.kernels hs.reps.classes (fun r _ => hlin r) fun r hr =>
        (row_kernel hμ hs (hl r (hl'.mem_iff.1 hr))).cls).1
  · exact Stoch.overOrders (K := fun l' => kernels (fun r => resample vs joint (SameApart r)) l') fun l' _ =>
      Stoch.kernels hs.reps.classes (fun r _ => hlin r) fun r _ => Stoch.resample (hs.weighs r) hs.reps.classes

end Cgpm2.Views
