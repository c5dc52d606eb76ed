import Verif.Model.Cgpm

/-!
# Relating two runs of a method (helpers)

`Py.Rel E m m'`: started in related objects and with the same random state, `m` and `m'` return
the same result or exception, leave related objects, and the same random state.
`Py.Keeps E m`: `m` leaves an object related to the one it was called on.
-/

namespace Cgpm2
namespace Py
variable {S T A α β : Type}

/-- Outcomes agree up to `E`. -/
def OutRel (E : S → S → Prop) (x y : Except Err α × (S × T)) : Prop :=
  x.1 = y.1 ∧ E x.2.1 y.2.1 ∧ x.2.2 = y.2.2

def Rel (E : S → S → Prop) (m m' : Py (S × T) α) : Prop :=
  ∀ s s' g, E s s' → OutRel E (m (s, g)) (m' (s', g))

def Keeps (E : S → S → Prop) (m : Py (S × T) α) : Prop :=
  ∀ s g, E s s → E s (m (s, g)).2.1

theorem get_bind (f : S → Py S α) (s : S) : (Py.get >>= f) s = f s s := rfl

theorem lift_bind (x : Except Err α) (f : α → Py S β) (s : S) :
    (Py.lift x >>= f) s = match x with
      | .ok a => f a s
      | .error e => (.error e, s) := by cases x <;> rfl

theorem each_nil (m : Py (S × T) α) (g : T) : Py.each m ([], g) = (.ok [], ([], g)) := rfl

theorem each_cons (m : Py (S × T) α) (s : S) (ss : List S) (g : T) :
    Py.each m (s :: ss, g) =
      match m (s, g) with
      | (.error e, (s', g')) => (.error e, (s' :: ss, g'))
      | (.ok a, (s', g')) =>
        match Py.each m (ss, g') with
        | (.error e, (ss', g'')) => (.error e, (s' :: ss', g''))
        | (.ok as, (ss', g'')) => (.ok (a :: as), (s' :: ss', g'')) := rfl

theorem modify_bind (h : S → S) (f : Unit → Py S β) (s : S) :
    (Py.modify h >>= f) s = f () (h s) := rfl

theorem pure_bind' (a : α) (f : α → Py S β) (s : S) : ((Pure.pure a : Py S α) >>= f) s = f a s := rfl

section Rel
variable {E : S → S → Prop}

theorem Rel.pure (a : α) : Rel (T := T) E (Pure.pure a : Py (S × T) α) (Pure.pure a : Py (S × T) α) := fun _ _ _ h => ⟨rfl, h, rfl⟩

theorem Rel.throw (e : Err) : Rel (T := T) (α := α) E (Py.throw e) (Py.throw e) :=
  fun _ _ _ h => ⟨rfl, h, rfl⟩

theorem Rel.lift (x : Except Err α) : Rel (T := T) E (Py.lift x) (Py.lift x) :=
  fun _ _ _ h => ⟨rfl, h, rfl⟩

theorem Rel.assert (p : Prop) [Decidable p] : Rel (T := T) E (Py.assert p) (Py.assert p) := by
  intro s s' g h
  simp only [assert_apply]
  split <;> exact ⟨rfl, h, rfl⟩

theorem Rel.onSnd (m : Py T α) : Rel (T := T) E (Py.onSnd m) (Py.onSnd m) :=
  fun _ _ _ h => ⟨rfl, h, rfl⟩

theorem OutRel.bind {m m' : Py (S × T) α} {f f' : α → Py (S × T) β} {s s' : S} {g : T}
    (hm : OutRel E (m (s, g)) (m' (s', g))) (hf : ∀ a, Rel E (f a) (f' a)) :
    OutRel E ((m >>= f) (s, g)) ((m' >>= f') (s', g)) := by
  obtain ⟨h1, h2, h3⟩ := hm
  rw [bind_apply, bind_apply]
  rcases hx : m (s, g) with ⟨_ | a, s1, g1⟩ <;> rcases hy : m' (s', g) with ⟨_ | b, s2, g2⟩ <;>
    rw [hx, hy] at h1 h2 h3 <;> simp only at h1 h2 h3
  · cases h1; subst h3; exact ⟨rfl, h2, rfl⟩
  · cases h1
  · cases h1
  · cases h1; subst h3; exact hf _ _ _ _ h2

theorem Rel.bind {m m' : Py (S × T) α} {f f' : α → Py (S × T) β} (hm : Rel E m m')
    (hf : ∀ a, Rel E (f a) (f' a)) : Rel E (m >>= f) (m' >>= f') :=
  fun s s' g h => OutRel.bind (hm s s' g h) hf

theorem Rel.get {f f' : S × T → Py (S × T) α}
    (h : ∀ s s' g, E s s' → OutRel E (f (s, g) (s, g)) (f' (s', g) (s', g))) :
    Rel E (Py.get >>= f) (Py.get >>= f') := fun s s' g hE => h s s' g hE

theorem Rel.modify {h h' : S × T → S × T}
    (hh : ∀ s s' g, E s s' → E (h (s, g)).1 (h' (s', g)).1 ∧ (h (s, g)).2 = (h' (s', g)).2) :
    Rel E (Py.modify h) (Py.modify h') :=
  fun s s' g hE => ⟨rfl, (hh s s' g hE).1, (hh s s' g hE).2⟩

theorem Rel.catchAll {m m' : Py (S × T) α} (hm : Rel E m m') (d : α) :
    Rel E (Py.catchAll m d) (Py.catchAll m' d) := by
  intro s s' g h
  obtain ⟨h1, h2, h3⟩ := hm s s' g h
  unfold Py.catchAll
  rcases hx : m (s, g) with ⟨_ | a, s1, g1⟩ <;> rcases hy : m' (s', g) with ⟨_ | b, s2, g2⟩ <;>
    rw [hx, hy] at h1 h2 h3 <;> simp only at h1 h2 h3
  · exact ⟨rfl, h2, h3⟩
  · cases h1
  · cases h1
  · cases h1; exact ⟨rfl, h2, h3⟩

theorem Rel.mapL {f f' : α → Py (S × T) β} (hf : ∀ a, Rel E (f a) (f' a)) (l : List α) :
    Rel E (Py.mapL f l) (Py.mapL f' l) := by
  induction l with
  | nil => exact Rel.pure _
  | cons a l ih => exact (hf a).bind fun b => ih.bind fun bs => Rel.pure _

theorem Rel.each {m m' : Py (S × T) α} (hm : Rel E m m') :
    Rel (List.Forall₂ E) (Py.each m) (Py.each m') := by
  intro l l' g h
  induction h generalizing g with
  | nil => exact ⟨rfl, .nil, rfl⟩
  | @cons s s' l l' hs hl ih =>
    obtain ⟨h1, h2, h3⟩ := hm s s' g hs
    rw [each_cons, each_cons]
    rcases hx : m (s, g) with ⟨_ | a, s1, g1⟩ <;> rcases hy : m' (s', g) with ⟨_ | b, s2, g2⟩ <;>
      rw [hx, hy] at h1 h2 h3 <;> simp only at h1 h2 h3
    · cases h1; subst h3; exact ⟨rfl, .cons h2 hl, rfl⟩
    · cases h1
    · cases h1
    · cases h1; subst h3
      obtain ⟨k1, k2, k3⟩ := ih g1
      unfold OutRel; dsimp only
      rcases hx : Py.each m (l, g1) with ⟨_ | as, l1, g1'⟩ <;>
        rcases hy : Py.each m' (l', g1) with ⟨_ | bs, l2, g2'⟩ <;>
        rw [hx, hy] at k1 k2 k3 <;> simp only at k1 k2 k3
      · cases k1; subst k3; exact ⟨rfl, .cons h2 k2, rfl⟩
      · cases k1
      · cases k1
      · cases k1; subst k3; exact ⟨rfl, .cons h2 k2, rfl⟩

theorem Rel.onAttr {EA : A → A → Prop} {get : S → A} {set : S → A → S}
    (hget : ∀ s s', E s s' → EA (get s) (get s'))
    (hset : ∀ s s' a a', E s s' → EA a a' → E (set s a) (set s' a'))
    {m m' : Py (A × T) α} (hm : Rel EA m m') :
    Rel E (Py.onAttr get set m) (Py.onAttr get set m') := by
  intro s s' g h
  obtain ⟨h1, h2, h3⟩ := hm _ _ g (hget s s' h)
  exact ⟨h1, hset _ _ _ _ h h2, h3⟩

end Rel

section Keeps
variable {E : S → S → Prop}

theorem Keeps.pure (a : α) : Keeps (T := T) E (Pure.pure a : Py (S × T) α) := fun _ _ h => h
theorem Keeps.throw (e : Err) : Keeps (T := T) (α := α) E (Py.throw e) := fun _ _ h => h
theorem Keeps.lift (x : Except Err α) : Keeps (T := T) E (Py.lift x) := fun _ _ h => h
theorem Keeps.assert (p : Prop) [Decidable p] : Keeps (T := T) E (Py.assert p) := by
  intro s g h
  simp only [assert_apply]
  split <;> exact h
theorem Keeps.onSnd (m : Py T α) : Keeps (T := T) E (Py.onSnd m) := fun _ _ h => h

theorem Keeps.bind (htr : ∀ a b c, E a b → E b c → E a c) (hr : ∀ a b, E a b → E b b)
    {m : Py (S × T) α} {f : α → Py (S × T) β} (hm : Keeps E m) (hf : ∀ a, Keeps E (f a)) :
    Keeps E (m >>= f) := by
  intro s g h
  have := hm s g h
  rw [bind_apply]
  rcases hx : m (s, g) with ⟨_ | a, s1, g1⟩ <;> rw [hx] at this
  · exact this
  · exact htr _ _ _ this (hf a s1 g1 (hr _ _ this))

theorem Keeps.get {f : S × T → Py (S × T) α}
    (h : ∀ s g, E s s → E s (f (s, g) (s, g)).2.1) : Keeps E (Py.get >>= f) := fun s g hE => h s g hE

theorem Keeps.mapL (htr : ∀ a b c, E a b → E b c → E a c) (hr : ∀ a b, E a b → E b b)
    {f : α → Py (S × T) β} (hf : ∀ a, Keeps E (f a)) (l : List α) : Keeps E (Py.mapL f l) := by
  induction l with
  | nil => exact Keeps.pure _
  | cons a l ih => exact (hf a).bind htr hr fun b => ih.bind htr hr fun bs => Keeps.pure _

theorem Keeps.each {m : Py (S × T) α} (hm : Keeps E m) :
    Keeps (List.Forall₂ E) (Py.each m) := by
  intro l g h
  induction l generalizing g with
  | nil => exact .nil
  | cons s l ih =>
    cases h with
    | cons hs hl =>
      have := hm s g hs
      rw [each_cons]
      rcases hx : m (s, g) with ⟨_ | a, s1, g1⟩ <;> rw [hx] at this
      · exact .cons this hl
      · have k := ih g1 hl
        dsimp only
        rcases hy : Py.each m (l, g1) with ⟨_ | as, l1, g1'⟩ <;> rw [hy] at k
        · exact .cons this k
        · exact .cons this k

theorem Keeps.onAttr {EA : A → A → Prop} {get : S → A} {set : S → A → S}
    (hget : ∀ s, E s s → EA (get s) (get s))
    (hset : ∀ s a, E s s → EA (get s) a → E s (set s a))
    {m : Py (A × T) α} (hm : Keeps EA m) : Keeps E (Py.onAttr get set m) :=
  fun s g h => hset _ _ h (hm _ g (hget s h))

end Keeps

/-- `m` neither reads nor changes the random state. -/
def NoDraw (m : Py (S × T) α) : Prop :=
  ∀ s g g', (m (s, g)).1 = (m (s, g')).1 ∧ (m (s, g)).2.1 = (m (s, g')).2.1 ∧ (m (s, g)).2.2 = g

section NoDraw

theorem NoDraw.pure (a : α) : NoDraw (Pure.pure a : Py (S × T) α) := fun _ _ _ => ⟨rfl, rfl, rfl⟩
theorem NoDraw.throw (e : Err) : NoDraw (S := S) (T := T) (α := α) (Py.throw e) :=
  fun _ _ _ => ⟨rfl, rfl, rfl⟩
theorem NoDraw.lift (x : Except Err α) : NoDraw (S := S) (T := T) (Py.lift x) :=
  fun _ _ _ => ⟨rfl, rfl, rfl⟩
theorem NoDraw.assert (p : Prop) [Decidable p] : NoDraw (S := S) (T := T) (Py.assert p) := by
  intro s g g'
  simp only [assert_apply]
  split <;> exact ⟨rfl, rfl, rfl⟩

theorem NoDraw.bind {m : Py (S × T) α} {f : α → Py (S × T) β} (hm : NoDraw m)
    (hf : ∀ a, NoDraw (f a)) : NoDraw (m >>= f) := by
  intro s g g'
  obtain ⟨h1, h2, h3⟩ := hm s g g'
  obtain ⟨_, _, h3'⟩ := hm s g' g
  rw [bind_apply, bind_apply]
  rcases hx : m (s, g) with ⟨_ | a, s1, g1⟩ <;> rcases hy : m (s, g') with ⟨_ | b, s2, g2⟩ <;>
    rw [hx] at h1 h2 h3 <;> rw [hy] at h1 h2 h3' <;> simp only at h1 h2 h3 h3'
  · cases h1; subst h2; exact ⟨rfl, rfl, h3⟩
  · cases h1
  · cases h1
  · cases h1; subst h2; subst h3; subst h3'; exact hf a s1 _ _

theorem NoDraw.get {f : S × T → Py (S × T) α}
    (h : ∀ s g g', (f (s, g) (s, g)).1 = (f (s, g') (s, g')).1 ∧
      (f (s, g) (s, g)).2.1 = (f (s, g') (s, g')).2.1 ∧ (f (s, g) (s, g)).2.2 = g) :
    NoDraw (Py.get >>= f) := h

theorem NoDraw.mapL {f : α → Py (S × T) β} (hf : ∀ a, NoDraw (f a)) (l : List α) :
    NoDraw (Py.mapL f l) := by
  induction l with
  | nil => exact NoDraw.pure _
  | cons a l ih => exact (hf a).bind fun b => ih.bind fun bs => NoDraw.pure _

theorem NoDraw.each {m : Py (S × T) α} (hm : NoDraw m) : NoDraw (Py.each m) := by
  intro l g g'
  induction l generalizing g g' with
  | nil => exact ⟨rfl, rfl, rfl⟩
  | cons s l ih =>
    obtain ⟨h1, h2, h3⟩ := hm s g g'
    obtain ⟨_, _, h3'⟩ := hm s g' g
    rw [each_cons, each_cons]
    rcases hx : m (s, g) with ⟨_ | a, s1, g1⟩ <;> rcases hy : m (s, g') with ⟨_ | b, s2, g2⟩ <;>
      rw [hx] at h1 h2 h3 <;> rw [hy] at h1 h2 h3' <;> simp only at h1 h2 h3 h3'
    · cases h1; subst h2; exact ⟨rfl, rfl, h3⟩
    · cases h1
    · cases h1
    · cases h1; subst h2; subst h3; subst h3'
      obtain ⟨k1, k2, k3⟩ := ih g1 g2
      dsimp only
      rcases hx : Py.each m (l, g1) with ⟨_ | as, l1, g1'⟩ <;>
        rcases hy : Py.each m (l, g2) with ⟨_ | bs, l2, g2'⟩ <;>
        rw [hx, hy] at k1 k2 <;> rw [hx] at k3 <;> simp only at k1 k2 k3
      · cases k1; subst k2; exact ⟨rfl, rfl, k3⟩
      · cases k1
      · cases k1
      · cases k1; subst k2; exact ⟨rfl, rfl, k3⟩

theorem NoDraw.onAttr {get : S → A} {set : S → A → S} {m : Py (A × T) α} (hm : NoDraw m) :
    NoDraw (Py.onAttr get set m) := by
  intro s g g'
  obtain ⟨h1, h2, h3⟩ := hm (get s) g g'
  exact ⟨h1, congrArg (set s) h2, h3⟩

end NoDraw

/-- `m` leaves the quantity `q` of the object alone. -/
def Fixes {Q : Type} (q : S → Q) (m : Py (S × T) α) : Prop := ∀ s g, q (m (s, g)).2.1 = q s

end Py
end Cgpm2
