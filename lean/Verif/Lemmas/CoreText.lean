import Verif.Model.CoreText
import Verif.Lemmas.CoreDsl

/-!
# Reading back the Core DSL (helpers)
-/

namespace Cgpm2.CoreDsl

/-! ## Lines -/

/-- A key the reader finds again: no colon that ends it, no blank or dash at its beginning, and on one
line. -/
structure Readable (k : Str) : Prop where
  alone : splitKey (k ++ [':']) = some (k, none)
  valued : ∀ s, splitKey (k ++ ':' :: ' ' :: s) = some (k, some s)
  head : ∃ c cs, k = c :: cs ∧ c ≠ ' ' ∧ c ≠ '-'
  line : '\n' ∉ k

theorem splitKey_cons {c : Char} (h : c ≠ ':') (s : Str) :
    splitKey (c :: s) = (splitKey s).map fun kv => (c :: kv.1, kv.2) := by
  rw [splitKey]
  · intro e; exact absurd e h
  · intro _ e; exact absurd e h

theorem splitKey_append {k : Str} (h : ':' ∉ k) (s : Str) :
    splitKey (k ++ s) = (splitKey s).map fun kv => (k ++ kv.1, kv.2) := by
  induction k with
  | nil => simp
  | cons c cs ih =>
    rw [List.cons_append, splitKey_cons (fun e => h (by simp [e])), ih (fun e => h (by simp [e]))]
    cases splitKey s <;> simp

theorem readable_of_plain {k : Str} (h : ':' ∉ k) (hh : ∃ c cs, k = c :: cs ∧ c ≠ ' ' ∧ c ≠ '-')
    (hl : '\n' ∉ k) : Readable k where
  alone := by rw [splitKey_append h]; simp [splitKey]
  valued s := by rw [splitKey_append h]; simp [splitKey]
  head := hh
  line := hl

theorem decimal_head (n : Int) : ∃ c cs, decimal n = c :: cs ∧ c ≠ ' ' ∧ c ≠ ':' := by
  have hb := not_mem_decimal (c := ' ') (by decide) (by decide) n
  have hc := not_mem_decimal (c := ':') (by decide) (by decide) n
  rcases h : decimal n with _ | ⟨c, cs⟩
  · cases n <;> simp [decimal] at h
  · rw [h] at hb hc
    exact ⟨c, cs, rfl, fun e => hb (by simp [e]), fun e => hc (by simp [e])⟩

theorem splitKey_compileKey {name : Str} (h : ':' ∉ name) (n : Int) (s : Str) :
    splitKey (compileKey name n ++ s) = (splitKey s).map fun kv => (compileKey name n ++ kv.1, kv.2) := by
  obtain ⟨c, cs, hd, hb, -⟩ := decimal_head n
  have hc := not_mem_decimal (c := ':') (by decide) (by decide) n
  have e : compileKey name n ++ s = (name ++ ['{', 'i', 'd']) ++ ':' :: (decimal n ++ ['}'] ++ s) := by
    simp [compileKey]
  have e2 : splitKey (':' :: (decimal n ++ ['}'] ++ s)) =
      (splitKey (decimal n ++ ['}'] ++ s)).map fun kv => (':' :: kv.1, kv.2) := by
    rw [hd]
    simp only [List.cons_append]
    rw [splitKey]
    · intro _ h; cases h
    · intro _ _ h
      injection h with h _
      exact hb h
  rw [e, splitKey_append (by simp [h]), e2, splitKey_append (by simp [hc])]
  cases splitKey s <;> simp [compileKey]

theorem readable_compileKey {name : Str} (h : ':' ∉ name) (hh : ∃ c cs, name = c :: cs ∧ c ≠ ' ' ∧ c ≠ '-')
    (hl : '\n' ∉ name) (n : Int) : Readable (compileKey name n) where
  alone := by rw [splitKey_compileKey h]; simp [splitKey]
  valued s := by rw [splitKey_compileKey h]; simp [splitKey]
  head := by
    obtain ⟨c, cs, e, h1, h2⟩ := hh
    exact ⟨c, cs ++ "{id:".toList ++ decimal n ++ "}".toList, by simp [compileKey, e], h1, h2⟩
  line := by
    have := not_mem_decimal (c := '\n') (by decide) (by decide) n
    simp [compileKey, hl, this]

theorem takeWhile_indent (i : Nat) {c : Char} (h : c ≠ ' ') (s : Str) :
    ((indent i ++ c :: s).takeWhile (· = ' ')).length = i ∧
      (indent i ++ c :: s).dropWhile (· = ' ') = c :: s := by
  induction i with
  | zero => simp [indent, h]
  | succ i ih => simpa [indent, List.replicate_succ] using ih

theorem toks_of {i : Nat} {c : Char} (h : c ≠ ' ') (s : Str) :
    toks (indent i ++ c :: s) = lineToks i (c :: s) := by
  rw [toks, if_neg (by simp)]
  obtain ⟨e1, e2⟩ := takeWhile_indent i h s
  rw [e1, e2]

theorem lineToks_of {i : Nat} {c : Char} (h : c ≠ '-') {s : Str} {k : Str} {v : Option Str}
    (hs : splitKey (c :: s) = some (k, v)) : lineToks i (c :: s) = .ok [.entry i k v] := by
  rw [lineToks, hs]
  intro _ e
  injection e with e _
  exact absurd e h

theorem toks_key {k : Str} (h : Readable k) (i : Nat) :
    toks (indent i ++ k ++ [':']) = .ok [.entry i k none] := by
  obtain ⟨c, cs, rfl, h1, h2⟩ := h.head
  rw [List.append_assoc, List.cons_append, toks_of h1]
  exact lineToks_of h2 h.alone

theorem toks_keyVal {k : Str} (h : Readable k) (i : Nat) (s : Str) :
    toks (indent i ++ k ++ ':' :: ' ' :: s) = .ok [.entry i k (some s)] := by
  have hv := h.valued s
  obtain ⟨c, cs, rfl, h1, h2⟩ := h.head
  rw [List.append_assoc, List.cons_append, toks_of h1]
  exact lineToks_of h2 hv

theorem toks_list {k : Str} (h : Readable k) (i : Nat) :
    toks (indent i ++ '-' :: ' ' :: (k ++ [':'])) = .ok [.dash i, .entry (i + 2) k none] := by
  rw [toks_of (by decide), lineToks, h.alone]

/-! ## Text -/

/-- The text, whatever follows it, has these marks. -/
def Lines (s : Str) (T : List Tok) : Prop := ∀ (rest : Str) (U : List (List Tok)),
  (split '\n' rest).mapM toks = .ok U →
    ∃ U', (split '\n' (s ++ rest)).mapM toks = .ok U' ∧ U'.flatten = T ++ U.flatten

theorem Lines.nil : Lines [] [] := fun _ U h => ⟨U, h, rfl⟩

theorem Lines.append {s s' : Str} {T T' : List Tok} (h : Lines s T) (h' : Lines s' T') :
    Lines (s ++ s') (T ++ T') := by
  intro rest U hU
  obtain ⟨U1, e1, f1⟩ := h' rest U hU
  obtain ⟨U2, e2, f2⟩ := h _ U1 e1
  exact ⟨U2, by rw [List.append_assoc]; exact e2, by rw [f2, f1, List.append_assoc]⟩

theorem Lines.flatMap {α : Type} {f : α → Str} {g : α → List Tok} {l : List α}
    (h : ∀ a ∈ l, Lines (f a) (g a)) : Lines (l.flatMap f) (l.flatMap g) := by
  induction l with
  | nil => exact Lines.nil
  | cons a l ih =>
    exact (h a (by simp)).append (ih fun b hb => h b (by simp [hb]))

theorem Lines.line {l : Str} {T : List Tok} (hn : '\n' ∉ l) (h : toks l = .ok T) :
    Lines (l ++ ['\n']) T := by
  intro rest U hU
  refine ⟨T :: U, ?_, rfl⟩
  rw [List.append_assoc, List.singleton_append, split_append hn, List.mapM_cons, h, hU]
  rfl

theorem not_mem_indent (i : Nat) : '\n' ∉ indent i := fun h => by
  have := List.eq_of_mem_replicate h
  cases this

theorem not_mem_fixed4 (v : ℚ) : '\n' ∉ fixed4 v := by
  intro h
  unfold fixed4 at h
  simp only [List.mem_append] at h
  rcases h with ((h | h) | h) | h | h
  · split at h <;> simp at h
  · exact absurd (digits_isDigit _ _ h) (by decide)
  · simp at h
  · exact absurd (isDigit_replicate _ _ h) (by decide)
  · exact absurd (digits_isDigit _ _ h) (by decide)

theorem not_mem_writeNumber (v : ℚ) : '\n' ∉ writeNumber v := by
  unfold writeNumber
  split
  · exact not_mem_decimal (by decide) (by decide) _
  · exact not_mem_fixed4 v

theorem lines_keyVal {k : Str} (h : Readable k) (i : Nat) (v : ℚ) :
    Lines (compileKeyVal i k v) [.entry i k (some (writeNumber v))] := by
  have e : compileKeyVal i k v = (indent i ++ k ++ ':' :: ' ' :: writeNumber v) ++ ['\n'] := by
    simp [compileKeyVal]
  rw [e]
  refine Lines.line ?_ (toks_keyVal h i _)
  simp [not_mem_indent, h.line, not_mem_writeNumber]

theorem lines_key {k : Str} (h : Readable k) (i : Nat) :
    Lines (compileKeyLine i k) [.entry i k none] := by
  have e : compileKeyLine i k = (indent i ++ k ++ [':']) ++ ['\n'] := by simp [compileKeyLine]
  rw [e]
  refine Lines.line ?_ (toks_key h i)
  simp [not_mem_indent, h.line]

theorem lines_list {k : Str} (h : Readable k) (i : Nat) :
    Lines (compileKeyList i k) [.dash i, .entry (i + 2) k none] := by
  have e : compileKeyList i k = (indent i ++ '-' :: ' ' :: (k ++ [':'])) ++ ['\n'] := by
    simp [compileKeyList]
  rw [e]
  refine Lines.line ?_ (toks_list h i)
  simp [not_mem_indent, h.line]

/-! ## Nodes -/

/-- Enough fuel to read these marks. -/
def enough (T : List Tok) : Nat := 2 * T.length + 1

/-- The marks are read as this node, at column `low` or to the right of it, whatever follows to the
left of it. -/
def Reads (low : Nat) (T : List Tok) (y : Yaml) : Prop :=
  ∀ fuel, enough T + 1 ≤ fuel → ∀ rest, (∀ t ∈ rest.head?, t.col < low) →
    node fuel low (T ++ rest) = .ok (y, rest)

theorem reads_null (low : Nat) : Reads low [] .null := by
  intro fuel hf rest hr
  obtain ⟨fuel, rfl⟩ : ∃ f, fuel = f + 1 := ⟨fuel - 1, by unfold enough at hf; omega⟩
  rcases rest with _ | ⟨t, ts⟩
  · rfl
  · cases t <;> rw [List.nil_append, node, if_pos (hr _ rfl)]

theorem items_read {col : Nat} {l : List (List Tok × Yaml)}
    (h : ∀ p ∈ l, Reads (col + 1) p.1 p.2) : ∀ fuel,
    enough (l.flatMap fun p => .dash col :: p.1) ≤ fuel → ∀ rest, (∀ t ∈ rest.head?, t.col < col) →
    items fuel col ((l.flatMap fun p => .dash col :: p.1) ++ rest) = .ok (l.map Prod.snd, rest) := by
  induction l with
  | nil =>
    intro fuel hf rest hr
    obtain ⟨fuel, rfl⟩ : ∃ f, fuel = f + 1 := ⟨fuel - 1, by unfold enough at hf; omega⟩
    rcases rest with _ | ⟨t, ts⟩
    · rfl
    · cases t <;> (rw [List.flatMap_nil, List.nil_append, items, if_pos (hr _ rfl)]; rfl)
  | cons p l ih =>
    intro fuel hf rest hr
    obtain ⟨fuel, rfl⟩ : ∃ f, fuel = f + 1 := ⟨fuel - 1, by unfold enough at hf; omega⟩
    simp only [List.flatMap_cons, List.cons_append, List.append_assoc]
    unfold enough at hf
    simp only [List.flatMap_cons, List.length_append, List.length_cons] at hf
    rw [items, if_neg (by simp [Tok.col])]
    simp only [if_true]
    rw [h p (by simp) fuel (by unfold enough; omega) _ ?_]
    · change (do
        let (ys, rest') ← items fuel col ((l.flatMap fun p => .dash col :: p.1) ++ rest)
        pure (p.2 :: ys, rest') : Except Err _) = _
      rw [ih (fun q hq => h q (by simp [hq])) fuel (by unfold enough; omega) rest hr]
      rfl
    · intro t ht
      rcases l with _ | ⟨q, l⟩
      · exact Nat.lt_succ_of_lt (hr t (by simpa using ht))
      · simp only [List.flatMap_cons, List.cons_append, List.head?_cons, Option.mem_def,
          Option.some.injEq] at ht
        subst ht
        exact Nat.lt_succ_self _

theorem reads_seq {low col : Nat} (hc : low ≤ col) {l : List (List Tok × Yaml)} (hl : l ≠ [])
    (h : ∀ p ∈ l, Reads (col + 1) p.1 p.2) :
    Reads low (l.flatMap fun p => .dash col :: p.1) (.seq (l.map Prod.snd)) := by
  intro fuel hf rest hr
  obtain ⟨fuel, rfl⟩ : ∃ f, fuel = f + 1 := ⟨fuel - 1, by unfold enough at hf; omega⟩
  have hi := items_read h fuel (by omega) rest fun t ht => lt_of_lt_of_le (hr t ht) hc
  rcases l with _ | ⟨p, l⟩
  · exact absurd rfl hl
  simp only [List.flatMap_cons, List.cons_append] at hi ⊢
  rw [node, if_neg (by simpa [Tok.col] using hc)]
  dsimp only
  rw [hi]
  rfl

/-- An entry of a mapping: its value is on its line, or below it. -/
inductive Piece
  | inline (k s : Str)
  | below (k : Str) (T : List Tok) (y : Yaml)

def Piece.key : Piece → Str
  | .inline k _ => k
  | .below k _ _ => k

def Piece.toks (col : Nat) : Piece → List Tok
  | .inline k s => [.entry col k (some s)]
  | .below k T _ => .entry col k none :: T

def Piece.val : Piece → Yaml
  | .inline _ s => scalar s
  | .below _ _ y => y

def Piece.ok (col : Nat) : Piece → Prop
  | .inline _ _ => True
  | .below _ T y => Reads (col + 1) T y

theorem Piece.head (col : Nat) (p : Piece) : ∃ t ts, p.toks col = t :: ts ∧ t.col = col := by
  cases p
  · exact ⟨_, _, rfl, rfl⟩
  · exact ⟨_, _, rfl, rfl⟩

theorem entries_read {col : Nat} {l : List Piece} (h : ∀ p ∈ l, p.ok col) : ∀ fuel,
    enough (l.flatMap (Piece.toks col)) ≤ fuel → ∀ rest, (∀ t ∈ rest.head?, t.col < col) →
    ∀ acc, entries fuel col acc (l.flatMap (Piece.toks col) ++ rest) =
      .ok (l.foldl (fun d p => Dict.set d p.key p.val) acc, rest) := by
  induction l with
  | nil =>
    intro fuel hf rest hr acc
    obtain ⟨fuel, rfl⟩ : ∃ f, fuel = f + 1 := ⟨fuel - 1, by unfold enough at hf; omega⟩
    rcases rest with _ | ⟨t, ts⟩
    · rfl
    · rcases t with c | ⟨c, k, _ | s⟩ <;> (rw [List.flatMap_nil, List.nil_append, entries, if_pos (hr _ rfl)]; rfl)
  | cons p l ih =>
    intro fuel hf rest hr acc
    obtain ⟨fuel, rfl⟩ : ∃ f, fuel = f + 1 := ⟨fuel - 1, by unfold enough at hf; omega⟩
    have ih' := ih fun q hq => h q (by simp [hq])
    simp only [List.flatMap_cons, List.append_assoc]
    unfold enough at hf
    simp only [List.flatMap_cons, List.length_append] at hf
    cases p with
    | inline k s =>
      simp only [Piece.toks, List.length_cons, List.length_nil, List.cons_append,
        List.nil_append] at hf ⊢
      rw [entries, if_neg (by simp [Tok.col])]
      simp only [if_true]
      rw [ih' fuel (by unfold enough; omega) rest hr]
      rfl
    | below k T y =>
      simp only [Piece.toks, List.length_cons, List.cons_append] at hf ⊢
      rw [entries, if_neg (by simp [Tok.col])]
      simp only [if_true]
      have hy : Reads (col + 1) T y := h (.below k T y) (by simp)
      rw [hy fuel (by unfold enough; omega) _ ?_]
      · change entries fuel col (Dict.set acc k y) _ = _
        rw [ih' fuel (by unfold enough; omega) rest hr]
        rfl
      · intro t ht
        rcases l with _ | ⟨q, l⟩
        · exact Nat.lt_succ_of_lt (hr t (by simpa using ht))
        · obtain ⟨t', ts, e, hc⟩ := q.head col
          simp only [List.flatMap_cons, e, List.cons_append, List.head?_cons, Option.mem_def,
            Option.some.injEq] at ht
          subst ht
          omega

theorem set_new {V : Type} {d : Dict Str V} {k : Str} (h : k ∉ Dict.keys d) (v : V) :
    Dict.set d k v = d ++ [(k, v)] := by
  induction d with
  | nil => rfl
  | cons p d ih =>
    obtain ⟨k', v'⟩ := p
    simp only [Dict.keys, List.map_cons, List.mem_cons, not_or] at h
    rw [Dict.set, if_neg (fun e => h.1 e.symm), ih h.2]
    rfl

theorem foldl_set {l : List Piece} (acc : Dict Str Yaml)
    (h : (Dict.keys acc ++ l.map Piece.key).Nodup) :
    l.foldl (fun d p => Dict.set d p.key p.val) acc = acc ++ l.map fun p => (p.key, p.val) := by
  induction l generalizing acc with
  | nil => simp
  | cons p l ih =>
    have hk : p.key ∉ Dict.keys acc := by
      intro hm
      have := List.nodup_append.1 h
      exact this.2.2 _ hm _ (by simp) rfl
    rw [List.foldl_cons, set_new hk, ih]
    · simp
    · simpa [Dict.keys, List.append_assoc] using h

theorem reads_map {low col : Nat} (hc : low ≤ col) {l : List Piece} (hl : l ≠ [])
    (hk : (l.map Piece.key).Nodup) (h : ∀ p ∈ l, p.ok col) :
    Reads low (l.flatMap (Piece.toks col)) (.map (l.map fun p => (p.key, p.val))) := by
  intro fuel hf rest hr
  obtain ⟨fuel, rfl⟩ : ∃ f, fuel = f + 1 := ⟨fuel - 1, by unfold enough at hf; omega⟩
  have hi := entries_read h fuel (by omega) rest (fun t ht => lt_of_lt_of_le (hr t ht) hc) []
  rw [foldl_set [] (by simpa [Dict.keys] using hk)] at hi
  rcases l with _ | ⟨p, l⟩
  · exact absurd rfl hl
  obtain ⟨t, ts, e, htc⟩ := p.head col
  simp only [List.flatMap_cons, e, List.cons_append, List.nil_append] at hi ⊢
  cases p with
  | inline k s =>
    simp only [Piece.toks, List.cons.injEq] at e
    obtain ⟨rfl, rfl⟩ := e
    rw [node, if_neg (by simpa [Tok.col] using hc)]
    dsimp only
    rw [hi]
    rfl
  | below k T y =>
    simp only [Piece.toks, List.cons.injEq] at e
    obtain ⟨rfl, rfl⟩ := e
    rw [node, if_neg (by simpa [Tok.col] using hc)]
    dsimp only
    rw [hi]
    rfl

end Cgpm2.CoreDsl
