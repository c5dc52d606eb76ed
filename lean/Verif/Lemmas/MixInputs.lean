import Verif.Lemmas.TowerLaws
import Verif.Lemmas.Table

/-!
# Inputs a row mixture does not read (helpers)
-/

namespace Cgpm2
namespace RowMix
variable {A : Type} {AI : Iface A} {MA : Sem A}

/-- Both runs are in the same state, which differs from `m₀` only by components created by
queries. -/
def Same (MA : Sem A) (m₀ m n : RowMix A) : Prop := m = n ∧ E0 MA m₀ m

variable (LA : Laws AI MA) {m₀ : RowMix A} {i : Dict Var Val}

theorem same_of_keeps {α : Type} {f : Py (RowMix A × Rng) α} (hf : Py.Keeps (E0 MA) f)
    (LA : Laws AI MA) : Py.Rel (Same MA m₀) f f := by
  rintro m n g ⟨rfl, h⟩
  exact ⟨rfl, ⟨rfl, h.trans LA (hf m g (h.right LA))⟩, rfl⟩

theorem only_disjoint {l : List Var} {i : Dict Var Val} (h : ∀ k ∈ Dict.keys i, k ∉ l) :
    getIntersection l i = [] := by
  rw [getIntersection_eq, Spec.only, List.filter_eq_nil_iff]
  intro kv hkv
  simpa using h kv.1 (List.mem_map.2 ⟨kv, hkv, rfl⟩)

theorem getIntersection_nil (l : List Var) : getIntersection l ([] : Dict Var Val) = [] := by
  rw [getIntersection_eq, Spec.only]; rfl

include LA

section
variable (hx : ∀ k ∈ Dict.keys i, k ∉ m₀.outputsX AI) (hz : ∀ k ∈ Dict.keys i, k ∉ m₀.inputsZ)

theorem Same.readsX (hx : ∀ k ∈ Dict.keys i, k ∉ m₀.outputsX AI) {m n : RowMix A}
    (h : Same MA m₀ m n) : getIntersection (m.outputsX AI) i = [] :=
  only_disjoint (by rw [← h.2.outputsX LA]; exact hx)

omit LA in
theorem Same.readsZ (hz : ∀ k ∈ Dict.keys i, k ∉ m₀.inputsZ) {m n : RowMix A}
    (h : Same MA m₀ m n) : getIntersection m.inputsZ i = [] :=
  only_disjoint (by rw [← h.2.inputsZ]; exact hz)

include hx

theorem same_logpdfOne (r t c z) :
    Py.Rel (Same MA m₀) (logpdfOne AI r t c i z) (logpdfOne AI r t c [] z) := by
  refine Py.Rel.get fun m n g h => ?_
  have hr := Same.readsX LA hx h
  obtain ⟨rfl, h⟩ := h
  dsimp only
  rw [hr, getIntersection_nil]
  split
  · exact Py.Rel.pure _ _ _ _ ⟨rfl, h⟩
  · exact same_of_keeps (keeps_onArray (LA.logpdf_keeps _ _ _ _)) LA _ _ _ ⟨rfl, h⟩

theorem same_simulateOne (r t c N z) :
    Py.Rel (Same MA m₀) (simulateOne AI r t c i N z) (simulateOne AI r t c [] N z) := by
  refine Py.Rel.get fun m n g h => ?_
  have hr := Same.readsX LA hx h
  obtain ⟨rfl, h⟩ := h
  dsimp only
  rw [hr, getIntersection_nil]
  have key := keeps_simulateOne LA r t c [] N z m g (h.right LA)
  exact ⟨rfl, ⟨rfl, h.trans LA key⟩, rfl⟩

include hz

theorem same_logpdfMarginal (r t c) :
    Py.Rel (Same MA m₀) (logpdfMarginal AI r t c i) (logpdfMarginal AI r t c []) := by
  refine Py.Rel.get fun m n g h => ?_
  have hr := Same.readsZ hz h
  obtain ⟨rfl, h'⟩ := id h
  dsimp only
  rw [hr, getIntersection_nil]
  exact Py.Rel.bind (Py.Rel.lift _) (fun _ => Py.Rel.bind (Py.Rel.lift _) fun _ =>
    (Py.Rel.mapL (fun _ => same_logpdfOne LA hx _ _ _ _) _).bind fun _ =>
    (Py.Rel.mapL (fun _ => same_logpdfOne LA hx _ _ _ _) _).bind fun _ => Py.Rel.pure _) _ _ _ h

theorem same_logpdfWith {recur recur' : Dict Var Val → Py (RowMix A × Rng) Fl}
    (hr : ∀ c, Py.Rel (Same MA m₀) (recur c) (recur' c)) (r t c) :
    Py.Rel (Same MA m₀) (logpdfWith AI recur r t c i) (logpdfWith AI recur' r t c []) := by
  refine Py.Rel.get fun m n g h => ?_
  have hi := Same.readsZ hz h
  obtain ⟨rfl, h'⟩ := id h
  dsimp only
  rw [hi, getIntersection_nil]
  rcases Dict.get? m.rowidToComponent r with _ | z
  · dsimp only
    rcases Dict.get? t m.indexer with _ | z
    · dsimp only
      rcases Dict.get? c m.indexer with _ | z
      · exact same_logpdfMarginal LA hx hz _ _ _ _ _ _ h
      · refine Py.Rel.bind (Py.Rel.lift _) (fun _ => ?_) _ _ _ h
        split
        · exact Py.Rel.throw _
        · exact (same_logpdfOne LA hx _ _ _ _).bind fun _ =>
            (same_logpdfOne LA hx _ _ _ _).bind fun _ => Py.Rel.pure _
    · refine Py.Rel.bind (Py.Rel.lift _) (fun _ => (same_logpdfOne LA hx _ _ _ _).bind fun _ => ?_) _ _ _ h
      split
      · exact (hr _).bind fun _ => Py.Rel.pure _
      · exact Py.Rel.bind (Py.Rel.pure _) fun _ => Py.Rel.pure _
  · exact Py.Rel.bind (Py.Rel.assert _) (fun _ => same_logpdfOne LA hx _ _ _ _) _ _ _ h

theorem same_logpdf (r t c) :
    Py.Rel (Same MA m₀) (logpdf AI r t c i) (logpdf AI r t c []) :=
  same_logpdfWith LA hx hz (fun _ => same_logpdfWith LA hx hz (fun _ => Py.Rel.throw _) _ _ _) _ _ _

theorem same_simulateFresh (r t c N) :
    Py.Rel (Same MA m₀) (simulateFresh AI r t c i N) (simulateFresh AI r t c [] N) := by
  refine Py.Rel.get fun m n g h => ?_
  obtain ⟨rfl, h'⟩ := id h
  refine Py.Rel.bind (Py.Rel.lift _) (fun _ =>
      (Py.Rel.mapL (fun _ => same_logpdf LA hx hz _ _ _) _).bind
      fun _ => (Py.Rel.onSnd _).bind fun _ => (Py.Rel.lift _).bind fun _ =>
      (Py.Rel.mapL (fun _ => same_simulateOne LA hx _ _ _ _ _) _).bind fun _ =>
      (Py.Rel.lift _).bind fun _ => ?_) _ _ _ h
  split
  · split
    · exact Py.Rel.throw _
    · exact Py.Rel.pure _
  · exact Py.Rel.pure _

theorem same_simulate (r t c N) :
    Py.Rel (Same MA m₀) (simulate AI r t c i N) (simulate AI r t c [] N) := by
  refine Py.Rel.get fun m n g h => ?_
  obtain ⟨rfl, h'⟩ := id h
  dsimp only
  rcases Dict.get? m.rowidToComponent r with _ | z
  · dsimp only
    rcases Dict.get? c m.indexer with _ | z
    · exact same_simulateFresh LA hx hz _ _ _ _ _ _ _ h
    · refine Py.Rel.bind (Py.Rel.lift _) (fun _ => ?_) _ _ _ h
      split
      · exact Py.Rel.throw _
      · exact same_simulateOne LA hx _ _ _ _ _
  · exact Py.Rel.bind (Py.Rel.assert _) (fun _ => same_simulateOne LA hx _ _ _ _ _) _ _ _ h

end
end RowMix
end Cgpm2
