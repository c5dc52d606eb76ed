import Verif.Model.CoreDsl
import Verif.Lemmas.CrpStep

/-!
# Text forms (helpers)
-/

namespace Cgpm2.CoreDsl

theorem digits_ne_nil (n : Nat) : Nat.toDigits 10 n ≠ [] := Nat.toDigits_ne_nil

theorem digits_isDigit (n : Nat) : ∀ c ∈ Nat.toDigits 10 n, c.isDigit := fun _ h =>
  Nat.isDigit_of_mem_toDigits (by norm_num) (by norm_num) h

theorem parseInt_digits {ds : Str} (h : ds ≠ []) (h' : ∀ c ∈ ds, c.isDigit) :
    parseInt ds = .ok (Nat.ofDigitChars 10 ds 0) := by
  unfold parseInt
  split
  · rename_i es
    have := h' '-' (by simp)
    exact absurd this (by decide)
  · rw [if_pos ⟨h, List.all_eq_true.2 h'⟩]

theorem parseInt_neg {ds : Str} (h : ds ≠ []) (h' : ∀ c ∈ ds, c.isDigit) :
    parseInt ('-' :: ds) = .ok (-(Nat.ofDigitChars 10 ds 0)) := by
  unfold parseInt
  exact if_pos ⟨h, List.all_eq_true.2 h'⟩

theorem parseInt_decimal (n : Int) : parseInt (decimal n) = .ok n := by
  cases n with
  | ofNat n =>
    rw [decimal, parseInt_digits (digits_ne_nil n) (digits_isDigit n), Nat.ofDigitChars_ten_toDigits]
    rfl
  | negSucc n =>
    rw [decimal, parseInt_neg (digits_ne_nil _) (digits_isDigit _), Nat.ofDigitChars_ten_toDigits]
    rfl

theorem not_mem_decimal {c : Char} (hc : c.isDigit = false) (hm : c ≠ '-') (n : Int) :
    c ∉ decimal n := by
  cases n with
  | ofNat n =>
    intro h
    rw [digits_isDigit n c h] at hc
    cases hc
  | negSucc n =>
    intro h
    rcases List.mem_cons.1 h with h | h
    · exact hm h
    · rw [digits_isDigit _ c h] at hc
      cases hc

theorem split_none {c : Char} {s : Str} (h : c ∉ s) : split c s = [s] := by
  induction s with
  | nil => rfl
  | cons x xs ih =>
    rw [split, if_neg (fun e => h (by simp [e])), ih (fun e => h (by simp [e]))]

theorem split_append {c : Char} {a : Str} (h : c ∉ a) (s : Str) :
    split c (a ++ c :: s) = a :: split c s := by
  induction a with
  | nil => simp [split]
  | cons x xs ih =>
    rw [List.cons_append, split, if_neg (fun e => h (by simp [e])), ih (fun e => h (by simp [e]))]

theorem dropId_none {s : Str} (h : 'i' ∉ s) : dropId s = s := by
  induction s with
  | nil => simp [dropId]
  | cons c cs ih =>
    rw [dropId, if_neg, ih (fun e => h (by simp [e]))]
    rintro ⟨t, ht⟩
    simp only [List.cons_append, List.cons.injEq] at ht
    exact h (List.mem_cons.2 (.inl ht.1))

theorem dropId_append {a : Str} (h : ¬ ['i', 'd', ':'] <:+: a) (s : Str) :
    dropId (a ++ '{' :: s) = a ++ '{' :: dropId s := by
  induction a with
  | nil =>
    rw [List.nil_append, List.nil_append, dropId, if_neg]
    rintro ⟨t, ht⟩
    simp at ht
  | cons c cs ih =>
    rw [List.cons_append, dropId, if_neg, ih (fun e => h (e.trans (List.suffix_cons c cs).isInfix)),
      List.cons_append]
    rintro ⟨t, ht⟩
    rcases cs with _ | ⟨d, cs⟩
    · simp at ht
    · rcases cs with _ | ⟨e, cs⟩
      · simp at ht
      · simp only [List.cons_append, List.cons.injEq] at ht
        obtain ⟨rfl, rfl, rfl, -⟩ := ht
        exact h ⟨[], cs, by simp⟩

theorem dropId_prefix (s : Str) : dropId ('i' :: 'd' :: ':' :: s) = dropId s := by
  rw [dropId, if_pos ⟨s, rfl⟩]
  rfl

theorem parseKey_compileKey {name : Str} (h1 : '{' ∉ name) (h2 : '}' ∉ name)
    (h3 : ¬ ['i', 'd', ':'] <:+: name) (n : Int) :
    parseKey (compileKey name n) = .ok (name, n) := by
  have hd : decimal n ≠ [] := by
    cases n <;> simp [decimal]
  have hb := not_mem_decimal (c := '{') (by decide) (by decide) n
  have hb' := not_mem_decimal (c := '}') (by decide) (by decide) n
  have hi := not_mem_decimal (c := 'i') (by decide) (by decide) n
  have hf : (compileKey name n).filter (· ≠ '}') = name ++ '{' :: 'i' :: 'd' :: ':' :: decimal n := by
    have ha : ∀ s : Str, '}' ∉ s → s.filter (· ≠ '}') = s := fun s hs =>
      List.filter_eq_self.2 fun c hc => by
        have : c ≠ '}' := fun e => hs (e ▸ hc)
        simpa using this
    have hn := ha name h2
    have hdn := ha (decimal n) hb'
    simp only [compileKey, List.filter_append, hn, hdn]
    have : ("{id:".toList).filter (· ≠ '}') = ['{', 'i', 'd', ':'] := by decide
    rw [this]
    have : ("}".toList).filter (· ≠ '}') = [] := by decide
    rw [this]
    simp
  have hm : '{' ∈ compileKey name n := by
    simp [compileKey]
  unfold parseKey
  rw [hf, dropId_append h3, dropId_prefix, dropId_none hi, split_append h1, split_none hb]
  simp only [hm, not_true_eq_false, if_false, parseInt_decimal]
  rfl

/-! ## Numbers -/

theorem isDigit_replicate (k : Nat) : ∀ c ∈ List.replicate k '0', c.isDigit := fun c h => by
  rw [List.eq_of_mem_replicate h]
  decide

theorem read_fixed4 (v : ℚ) :
    readNumber (fixed4 v) = .ok ((round (v * 10000) : Int) / 10000) := by
  set n := round (v * 10000) with hn
  set ds := Nat.toDigits 10 (n.natAbs % 10000) with hds
  set a : Str := (if v < 0 then ['-'] else []) ++ Nat.toDigits 10 (n.natAbs / 10000) with ha
  set b : Str := List.replicate (4 - ds.length) '0' ++ ds with hb
  have hf : fixed4 v = a ++ '.' :: b := by
    simp only [fixed4, ha, hb, hds, hn, List.append_assoc, List.singleton_append]
  have hdig : ∀ c ∈ b, c.isDigit := fun c hc => by
    rcases List.mem_append.1 hc with h | h
    · exact isDigit_replicate _ c h
    · exact digits_isDigit _ c h
  have hadot : '.' ∉ a := by
    intro h
    rcases List.mem_append.1 h with h | h
    · split at h
      · simp at h
      · simp at h
    · exact absurd (digits_isDigit _ _ h) (by decide)
  have hbdot : '.' ∉ b := fun h => absurd (hdig _ h) (by decide)
  have hlen : ds.length ≤ 4 := by
    rw [hds, Nat.length_toDigits_le_iff (by norm_num) (by norm_num)]
    exact Nat.mod_lt _ (by norm_num)
  have hblen : b.length = 4 := by
    rw [hb, List.length_append, List.length_replicate]
    omega
  have hbne : b ≠ [] := by
    intro h
    rw [h] at hblen
    simp at hblen
  have hbval : parseInt b = .ok ((n.natAbs % 10000 : Nat) : Int) := by
    rw [parseInt_digits hbne hdig, hb, Nat.ofDigitChars_append, Nat.ofDigitChars_replicate_zero,
      Nat.mul_zero, hds, Nat.ofDigitChars_ten_toDigits]
  have hval : ((n.natAbs / 10000 : Nat) : ℚ) + ((n.natAbs % 10000 : Nat) : ℚ) / 10 ^ 4 =
      (n.natAbs : ℚ) / 10000 := by
    have := Nat.div_add_mod n.natAbs 10000
    have h' : (10000 : ℚ) * ((n.natAbs / 10000 : Nat) : ℚ) + ((n.natAbs % 10000 : Nat) : ℚ) =
      (n.natAbs : ℚ) := by exact_mod_cast this
    rw [← h']
    ring
  rw [hf, readNumber, split_append hadot, split_none hbdot]
  dsimp only
  rw [hbval, hblen]
  by_cases hv : v < 0
  · have haeq : a = '-' :: Nat.toDigits 10 (n.natAbs / 10000) := by rw [ha, if_pos hv]; rfl
    have hle : n < 1 := by
      rw [hn, round_eq, Int.floor_lt]
      push_cast
      linarith
    rw [haeq, parseInt_neg (digits_ne_nil _) (digits_isDigit _), Nat.ofDigitChars_ten_toDigits]
    have hnat : ((n.natAbs : Nat) : ℚ) = -(n : ℚ) := by
      have : (n.natAbs : Int) = -n := by omega
      have h := congrArg (Int.cast : Int → ℚ) this
      rw [Int.cast_natCast, Int.cast_neg] at h
      exact h
    simp only [List.head?_cons, if_true]
    change Except.ok _ = _
    congr 1
    rw [Int.natAbs_neg, Int.natAbs_natCast, Int.cast_natCast, hval, hnat]
    ring
  · have haeq : a = Nat.toDigits 10 (n.natAbs / 10000) := by rw [ha, if_neg hv]; rfl
    have hle : 0 ≤ n := by
      rw [hn, round_eq]
      exact Int.floor_nonneg.2 (by linarith)
    have hhead : a.head? ≠ some '-' := by
      rw [haeq]
      intro h
      exact absurd (digits_isDigit _ _ (List.mem_of_mem_head? h)) (by decide)
    rw [if_neg hhead, haeq, parseInt_digits (digits_ne_nil _) (digits_isDigit _),
      Nat.ofDigitChars_ten_toDigits]
    have hnat : ((n.natAbs : Nat) : ℚ) = (n : ℚ) := by
      have : (n.natAbs : Int) = n := by omega
      have h := congrArg (Int.cast : Int → ℚ) this
      rw [Int.cast_natCast] at h
      exact h
    change Except.ok _ = _
    congr 1
    rw [Int.natAbs_natCast, Int.cast_natCast, hval, hnat]
    ring

theorem read_write (v : ℚ) : readNumber (writeNumber v) =
    .ok (if v = truncate v then v else (round (v * 10000) : Int) / 10000) := by
  unfold writeNumber
  by_cases h : v = truncate v
  · rw [if_pos h, if_pos h, readNumber, split_none (not_mem_decimal (by decide) (by decide) _)]
    dsimp only
    rw [parseInt_decimal]
    change Except.ok _ = _
    rw [← h]
  · rw [if_neg h, if_neg h]
    exact read_fixed4 v

end Cgpm2.CoreDsl
