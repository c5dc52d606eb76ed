import Verif.Lemmas.TidyLaws
import Verif.Spec.Walks

/-!
# The primitives of a model after a column was added (helpers)
-/

namespace Cgpm2
open Spec

theorem Prim.strip_strip (p : Prim) : primSem.strip (primSem.strip p) = primSem.strip p := by
  cases p <;> rfl

theorem primsIn_ofPrim : (n : Nat) → (p : Prim) → primsIn n (ofPrim n p) = [p]
  | 0, _ => rfl
  | _ + 1, _ => rfl

/-- A primitive of a model is one of the old ones, or the new one, or a clone of it. -/
theorem addCgpm_prims {Z : List Var} : (n : Nat) → (c c' : Cgpm n) → (new : Prim) →
    (cgpmTab Z n).Reg c → new.Good → Addable n c → addCgpm n c new = .ok c' →
    ∀ p ∈ primsIn n c', p ∈ primsIn n c ∨ p = new ∨ p = primSem.strip new
  | 0, _, _, _, _, _, ha, _ => ha.elim
  | n + 1, c, c', new, hc, hn, ha, h => by
    rcases c with q | q | a | a | m | m <;> first | exact ha.elim | skip
    · obtain ⟨q', h1, rfl⟩ := except_map_ok h
      obtain rfl := productAdd_of h1
      intro p hp
      have hp : p ∈ (q.cgpms ++ [ofPrim n new]).flatMap (primsIn n) := hp
      rw [List.flatMap_append, List.mem_append] at hp
      rcases hp with hp | hp
      · exact .inl hp
      · simp only [List.flatMap_cons, List.flatMap_nil, List.append_nil, primsIn_ofPrim,
          List.mem_singleton] at hp
        exact .inr (.inl hp)
    · obtain ⟨m', h1, rfl⟩ := except_map_ok h
      have hc : (flexMixTab (cgpmI n) (cgpmSem n) Z (cgpmTab Z n)).Reg m := hc
      obtain ⟨b1, b2, b3⟩ := flexMix_base (cgpmLaws n) (cgpmTLaws Z n) hc
      obtain ⟨b, cs, rfl, h2, h3⟩ := flexMixAdd_of hc.out hn h1
      intro p hp
      have hp : p ∈ m.rowDivide :: ((Dict.values cs).flatMap (primsIn n) ++ primsIn n b) := hp
      change p ∈ m.rowDivide :: ((Dict.values m.array.cgpms).flatMap (primsIn n) ++
        primsIn n m.array.base) ∨ _
      rcases List.mem_cons.1 hp with hp | hp
      · exact .inl (by rw [hp]; exact List.mem_cons_self)
      rcases List.mem_append.1 hp with hp | hp
      · obtain ⟨d, hd, hp⟩ := List.mem_flatMap.1 hp
        obtain ⟨⟨k, d'⟩, hk, rfl⟩ := List.mem_map.1 hd
        have key : ∀ {d d' : Dict Val (Cgpm n)},
            Alike (fun c c' => addCgpm n c (primSem.strip new) = .ok c') d d' → ∀ kc' ∈ d',
            ∃ kc ∈ d, addCgpm n kc.2 (primSem.strip new) = .ok kc'.2 := by
          intro d d' h
          induction h with
          | nil => intro kc' h; cases h
          | @cons a b l l' hab _ ih =>
            intro kc' hk
            rcases List.mem_cons.1 hk with rfl | hk
            · exact ⟨a, List.mem_cons_self, hab.2⟩
            · obtain ⟨kc, h1, h2⟩ := ih kc' hk
              exact ⟨kc, List.mem_cons_of_mem _ h1, h2⟩
        obtain ⟨kc, hkc, he⟩ := key h3 _ hk
        obtain ⟨hr, hsh⟩ := flexMix_mem hc hkc
        have ha' := ((addLaw Z n).alike _ _ new new hr b1 hsh rfl ha).1
        rcases addCgpm_prims n kc.2 d' (primSem.strip new) hr (primLaws.inv_strip hn) ha' he p hp with
          h | h | h
        · refine .inl (List.mem_cons_of_mem _ (List.mem_append_left _ ?_))
          exact List.mem_flatMap.2 ⟨kc.2, List.mem_map.2 ⟨kc, hkc, rfl⟩, h⟩
        · exact .inr (.inr h)
        · rw [Prim.strip_strip] at h
          exact .inr (.inr h)
      · rcases addCgpm_prims n _ b new b1 hn ha h2 p hp with h | h
        · exact .inl (List.mem_cons_of_mem _ (List.mem_append_right _ h))
        · exact .inr h

end Cgpm2
