import Verif.Lemmas.MixLaws
import Verif.Spec.Composite

/-!
# The log density of a mixture in closed form (helpers)
-/

namespace Cgpm2
open Spec

namespace Py
variable {S T α β : Type}

/-- The result of a sequence of queries, each evaluated in the initial object. -/
theorem val_bind {E : S → S → Prop} {f : Py (S × T) α} {k : α → Py (S × T) β} (hn : NoDraw f)
    (hf : Keeps E f) (hk : ∀ a, Rel E (k a) (k a)) {s : S} (hs : E s s) (g : T) :
    ((f >>= k) (s, g)).1 = (f (s, g)).1.bind fun a => (k a (s, g)).1 := by
  have h1 := hf s g hs
  have h2 := (hn s g g).2.2
  rw [bind_apply]
  rcases hx : f (s, g) with ⟨_ | a, s1, g1⟩ <;> rw [hx] at h1 h2
  · rfl
  · dsimp only at h1 h2
    subst h2
    exact (hk a s s1 g1 h1).1.symm

theorem val_mapL {E : S → S → Prop} {f : α → Py (S × T) β} (hn : ∀ a, NoDraw (f a))
    (hf : ∀ a, Keeps E (f a)) (hr : ∀ a, Rel E (f a) (f a)) {s : S} (hs : E s s) (g : T)
    (l : List α) : (Py.mapL f l (s, g)).1 = l.mapM fun a => (f a (s, g)).1 := by
  induction l with
  | nil => rfl
  | cons a l ih =>
    have h1 : (Py.mapL f (a :: l) (s, g)).1 = (f a (s, g)).1.bind fun b =>
        ((Py.mapL f l >>= fun bs => (Pure.pure (b :: bs) : Py (S × T) (List β))) (s, g)).1 :=
      val_bind (hn a) (hf a) (fun b => (Rel.mapL hr l).bind fun bs => Rel.pure _) hs g
    rw [h1, List.mapM_cons]
    rcases f a (s, g) with ⟨_ | b, st⟩
    · rfl
    · dsimp only [Except.bind, bind]
      rw [← ih, Py.bind_apply]
      rcases Py.mapL f l (s, g) with ⟨_ | bs, s1, g1⟩ <;> rfl

end Py

namespace RowMix
variable {A : Type} {AI : Iface A} {MA : Sem A}

/-- The answer of one component to its part of a query. -/
noncomputable def compVal (AI : Iface A) (m : RowMix A) (g : Rng) (r : RowId)
    (t c i : Dict Var Val) (z : Val) : Except Err Fl :=
  if only (m.outputsX AI) t = [] then .ok (.fin 0)
  else (AI.logpdf r (only (m.outputsX AI) t) (only (m.outputsX AI) c)
    (merged (only (m.outputsX AI) i) [(m.indexer, z)]) (m.array, g)).1

theorem logpdfOne_val (m : RowMix A) (g r t c i z) :
    (logpdfOne AI r t c i z (m, g)).1 = compVal AI m g r t c i z := by
  unfold logpdfOne compVal
  rw [Py.get_bind]
  dsimp only
  by_cases h : only (m.outputsX AI) t = []
  · rw [if_pos h, if_pos (show getIntersection (m.outputsX AI) t = [] from h)]; rfl
  · rw [if_neg h, if_neg (show ¬ getIntersection (m.outputsX AI) t = [] from h)]; rfl

theorem noDraw_bind_lift {α : Type} (x : Except Err α) (f : α → Py (RowMix A × Rng) Fl)
    (st : RowMix A × Rng) : ((Py.lift x >>= f) st).1 = x.bind fun a => (f a st).1 := by
  rw [Py.lift_bind]
  rcases x with e | a <;> rfl

/-- The log density of the constraints alone (the recursive call). -/
noncomputable def priorVal (m : RowMix A) (r : RowId) (i : Dict Var Val) (z : Val) :
    Except Err Fl :=
  m.rowDivide.logpdf r [(m.indexer, z)] [] (only m.inputsZ i)

/-- The last branch of `logpdf`. -/
noncomputable def marginalVal (AI : Iface A) (m : RowMix A) (g : Rng) (r : RowId)
    (t c i : Dict Var Val) : Except Err Fl :=
  m.rowDivide.support.bind fun supp =>
  (supp.mapM fun z : Int => priorVal m r i (.num z)).bind fun pri =>
  (supp.mapM fun z : Int => compVal AI m g r c [] i (.num z)).bind fun lik =>
  (supp.mapM fun z : Int => compVal AI m g r t c i (.num z)).bind fun tar =>
  .ok (Fl.logsumexp (List.zipWith (· + ·) tar (Fl.logNormalize (List.zipWith (· + ·) pri lik))))

/-- The branches of `logpdf` for a row that is not held. -/
noncomputable def val (AI : Iface A) (m : RowMix A) (g : Rng) (r : RowId)
    (recur : Except Err Fl) (t c i : Dict Var Val) : Except Err Fl :=
  match Dict.get? t m.indexer with
  | some z =>
    (priorVal m r i z).bind fun lz =>
    (compVal AI m g r (merged t c) [] i z).bind fun lx =>
    (if c ≠ [] then recur else .ok (.fin 0)).bind fun lc =>
    .ok ((lz + lx) - lc)
  | none =>
    match Dict.get? c m.indexer with
    | some z =>
      m.rowDivide.support.bind fun supp =>
      if ¬ ∃ k ∈ supp, z = .num ((k : Int) : ℚ) then .error .valueError
      else
        (compVal AI m g r (merged t c) [] i z).bind fun lx =>
        (compVal AI m g r c [] i z).bind fun lc => .ok (lx - lc)
    | none => marginalVal AI m g r t c i

section
variable (LA : Laws AI MA)
include LA

theorem logpdfMarginal_val {m : RowMix A} (hm : E0 MA m m) (g r t c i) :
    (logpdfMarginal AI r t c i (m, g)).1 = marginalVal AI m g r t c i := by
  unfold logpdfMarginal marginalVal
  rw [Py.get_bind]
  dsimp only
  rw [noDraw_bind_lift]
  congr 1; funext supp
  rw [noDraw_bind_lift]
  congr 1; funext pri
  have hone : ∀ t c, (Py.mapL (fun z : Int => logpdfOne AI r t c i (.num z)) supp (m, g)).1 =
      supp.mapM fun z : Int => compVal AI m g r t c i (.num z) := by
    intro t c
    rw [Py.val_mapL (fun z => noDraw_logpdfOne LA r t c i _) (fun z => keeps_logpdfOne LA r t c i _)
      (fun z => rel_logpdfOne LA r t c i _) hm]
    simp only [logpdfOne_val]
  rw [Py.val_bind (Py.NoDraw.mapL (fun z => noDraw_logpdfOne LA _ _ _ _ _) _)
    (keeps_mapL LA (fun z => keeps_logpdfOne LA _ _ _ _ _) _)
    (fun lik => (Py.Rel.mapL (fun _ => rel_logpdfOne LA _ _ _ _ _) _).bind fun _ => Py.Rel.pure _)
    hm, hone]
  congr 1; funext lik
  rw [Py.val_bind (Py.NoDraw.mapL (fun z => noDraw_logpdfOne LA _ _ _ _ _) _)
    (keeps_mapL LA (fun z => keeps_logpdfOne LA _ _ _ _ _) _)
    (fun tar => Py.Rel.pure _) hm, hone]
  rfl

theorem logpdfWith_val {recur : Dict Var Val → Py (RowMix A × Rng) Fl}
    (hr : ∀ c, Py.Rel (E0 MA) (recur c) (recur c)) (hn : ∀ c, Py.NoDraw (recur c))
    (hk : ∀ c, Py.Keeps (E0 MA) (recur c)) {m : RowMix A} (hm : E0 MA m m) {r : RowId}
    (hh : Dict.get? m.rowidToComponent r = none) (g t c i) :
    (logpdfWith AI recur r t c i (m, g)).1 = val AI m g r (recur c (m, g)).1 t c i := by
  unfold logpdfWith val
  rw [Py.get_bind]
  dsimp only
  rw [hh]
  dsimp only
  rcases ht : Dict.get? t m.indexer with _ | z <;> dsimp only
  · rcases hc : Dict.get? c m.indexer with _ | z <;> dsimp only
    · exact logpdfMarginal_val LA hm g r t c i
    · rw [noDraw_bind_lift]
      congr 1; funext supp
      split
      · rfl
      · rw [Py.val_bind (noDraw_logpdfOne LA _ _ _ _ _) (keeps_logpdfOne LA _ _ _ _ _)
          (fun _ => (rel_logpdfOne LA _ _ _ _ _).bind fun _ => Py.Rel.pure _) hm, logpdfOne_val]
        congr 1; funext lx
        rw [Py.val_bind (noDraw_logpdfOne LA _ _ _ _ _) (keeps_logpdfOne LA _ _ _ _ _)
          (fun _ => Py.Rel.pure _) hm, logpdfOne_val]
        rfl
  · rw [noDraw_bind_lift]
    congr 1; funext lz
    rw [Py.val_bind (noDraw_logpdfOne LA _ _ _ _ _) (keeps_logpdfOne LA _ _ _ _ _)
      (fun _ => by
        split
        · exact (hr _).bind fun _ => Py.Rel.pure _
        · exact Py.Rel.bind (Py.Rel.pure _) fun _ => Py.Rel.pure _) hm, logpdfOne_val]
    congr 1; funext lx
    by_cases hc : c ≠ []
    · rw [if_pos hc, if_pos hc, Py.val_bind (hn c) (hk c) (fun _ => Py.Rel.pure _) hm]
      rfl
    · rw [if_neg hc, if_neg hc]
      rfl

/-- `logpdf` for a row that is not held. -/
theorem logpdf_val {m : RowMix A} (hm : E0 MA m m) {r : RowId}
    (hh : Dict.get? m.rowidToComponent r = none) (g t c i) :
    (logpdf AI r t c i (m, g)).1 =
      val AI m g r (val AI m g r (.error .typeError) c [] i) t c i := by
  have h0 : ∀ cs, (logpdf0 AI r cs i (m, g)).1 = val AI m g r (.error .typeError) cs [] i :=
    fun cs => logpdfWith_val LA (fun _ => Py.Rel.throw _) (fun _ => Py.NoDraw.throw _)
      (fun _ => Py.Keeps.throw _) hm hh g cs [] i
  unfold logpdf
  rw [logpdfWith_val (recur := fun cs => logpdf0 AI r cs i) LA (fun c => rel_logpdfWith LA (fun _ => Py.Rel.throw _) r c [] i)
    (fun c => noDraw_logpdfWith LA (fun _ => Py.NoDraw.throw _) r c [] i)
    (fun c => keeps_logpdfWith LA (fun _ => Py.Keeps.throw _) r c [] i) hm hh, h0]

omit LA in
/-- `logpdf` for a row that is held. -/
theorem logpdf_val_held {m : RowMix A} {r : RowId} {z : Val}
    (hh : Dict.get? m.rowidToComponent r = some z) (g t c i) :
    (logpdf AI r t c i (m, g)).1 =
      if c = [] ∨ Dict.get? c m.indexer = none then compVal AI m g r t c i z
      else .error .assertionError := by
  unfold logpdf logpdfWith
  rw [Py.get_bind]
  dsimp only
  rw [hh]
  dsimp only
  rw [Py.bind_apply, Py.assert_apply]
  by_cases h : c = [] ∨ Dict.get? c m.indexer = none
  · rw [if_pos h, if_pos h]
    exact logpdfOne_val m g r t c i z
  · rw [if_neg h, if_neg h]

end

end RowMix

end Cgpm2
