import Verif.Lemmas.ProductLaws
import Verif.Spec.Composite

/-!
# The log density of a product in closed form (helpers)
-/

namespace Cgpm2
open Spec

theorem each_logpdfOne {S : Type} (I : Iface S)
    (hd : ∀ r t c i s g, (I.logpdf r t c i (s, g)).2.2 = g) (r : RowId) (t c i : Dict Var Val)
    (l : List S) (g : Rng) :
    (Py.each (logpdfOne I r t c i) (l, g)).1 = l.mapM (blockLogpdf I r t c i g) := by
  induction l with
  | nil => rfl
  | cons b l ih =>
    have h1 : ∀ st : S × Rng, logpdfOne I r t c i st =
        if only (I.outputs st.1) t = [] then (.ok (.fin 0), st)
        else I.logpdf r (only (I.outputs st.1) t) (only (I.outputs st.1) c)
          (only (I.inputs st.1) i) st := by
      intro st
      unfold logpdfOne
      rw [Py.get_bind]
      change (if only (I.outputs st.1) t = [] then _ else _ : Py (S × Rng) Fl) st = _
      split <;> rfl
    have h2 : (logpdfOne I r t c i (b, g)).1 = blockLogpdf I r t c i g b ∧
        (logpdfOne I r t c i (b, g)).2.2 = g := by
      rw [h1]
      unfold blockLogpdf
      split
      · exact ⟨rfl, rfl⟩
      · exact ⟨rfl, hd _ _ _ _ _ _⟩
    rw [Py.each_cons, List.mapM_cons, ← h2.1, ← ih]
    rcases hm : logpdfOne I r t c i (b, g) with ⟨_ | x, b', g'⟩
    · rfl
    · rw [hm] at h2
      obtain rfl : g' = g := h2.2
      dsimp only
      rcases Py.each (logpdfOne I r t c i) (l, g') with ⟨_ | xs, l', g''⟩ <;> rfl

theorem Product.logpdf_eq {S : Type} (I : Iface S)
    (hd : ∀ r t c i s g, (I.logpdf r t c i (s, g)).2.2 = g) (p : Product S) (r : RowId)
    (t c i : Dict Var Val) (g : Rng) :
    ((productI I).logpdf r t c i (p, g)).1 =
      (p.cgpms.mapM (blockLogpdf I r t c i g)).map Fl.sum := by
  rw [← each_logpdfOne I hd]
  simp only [productI, Product.logpdf, Product.each, Py.onAttr, Py.bind_apply]
  rcases Py.each (logpdfOne I r t c i) (p.cgpms, g) with ⟨_ | xs, l', g''⟩ <;> rfl

end Cgpm2
