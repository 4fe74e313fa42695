import Verif.Model.Text
/-! # Lemmas about decimal text and splitting -/
namespace LDT
namespace Text

theorem digit_toNat (d : Nat) (h : d < 10) : (digit d).toNat = 48 + d := by
  unfold digit
  have : d = 0 ∨ d = 1 ∨ d = 2 ∨ d = 3 ∨ d = 4 ∨ d = 5 ∨ d = 6 ∨ d = 7 ∨ d = 8 ∨ d = 9 := by omega
  rcases this with h | h | h | h | h | h | h | h | h | h <;> subst h <;> decide

theorem isDig_digit (d : Nat) (h : d < 10) : isDig (digit d) = true := by
  simp [isDig, digit_toNat d h]; omega

theorem decAux_spec (fuel n : Nat) (h : n ≤ fuel) :
    (∀ c ∈ decAux fuel n, isDig c = true) ∧ decAux fuel n ≠ [] ∧ digVal (decAux fuel n) = n := by
  induction fuel generalizing n with
  | zero =>
    have : n = 0 := by omega
    subst this; decide
  | succ fuel ih =>
    unfold decAux
    by_cases hn : n < 10
    · rw [if_pos hn]
      refine ⟨by simp [isDig_digit n hn], by simp, ?_⟩
      simp [digVal, digit_toNat n hn]
    · rw [if_neg hn]
      obtain ⟨h1, h2, h3⟩ := ih (n / 10) (by omega)
      refine ⟨?_, by simp, ?_⟩
      · intro c hc
        rcases List.mem_append.1 hc with hc | hc
        · exact h1 c hc
        · simp at hc; subst hc; exact isDig_digit _ (by omega)
      · unfold digVal at *
        rw [List.foldl_append, h3]
        simp [digit_toNat (n % 10) (by omega)]; omega

theorem dec_digits (n : Nat) : ∀ c ∈ dec n, isDig c = true := (decAux_spec n n (Nat.le_refl _)).1
theorem dec_ne_nil (n : Nat) : dec n ≠ [] := (decAux_spec n n (Nat.le_refl _)).2.1
theorem digVal_dec (n : Nat) : digVal (dec n) = n := (decAux_spec n n (Nat.le_refl _)).2.2

/-- Text that a number leaves untouched: empty or starting with a non-digit. -/
def NoDigitHead (s : Str) : Prop := ∀ c, s.head? = some c → isDig c = false

theorem takeWhile_dec (n : Nat) (r : Str) (h : NoDigitHead r) : (dec n ++ r).takeWhile isDig = dec n := by
  rw [List.takeWhile_append_of_pos (dec_digits n)]
  cases r with
  | nil => simp
  | cons c r => simp [List.takeWhile_cons, h c rfl]

theorem dig_not_space (c : Char) (h : isDig c = true) : isSpace c = false := by
  simp [isDig] at h; simp [isSpace]; omega

theorem dig_ne (c d : Char) (h : isDig c = true) (hd : isDig d = false) : c ≠ d := by
  intro e; rw [e, hd] at h; exact absurd h (by simp)

/-- `std::stoi` reads back what `std::to_string` wrote, whatever follows (if it is not a digit). -/
theorem stoi_toStr (i : Int) (r : Str) (h : NoDigitHead r) (h1 : -2147483648 ≤ i) (h2 : i ≤ 2147483647) :
    stoi (toStr i ++ r) = .ok i := by
  unfold stoi toStr
  by_cases hi : i < 0
  · rw [if_pos hi]
    have e1 : ('-' :: dec i.natAbs ++ r).dropWhile isSpace = '-' :: (dec i.natAbs ++ r) := by
      simp [show isSpace '-' = false by decide]
    rw [e1]
    have : signOf ('-' :: (dec i.natAbs ++ r)) = (true, dec i.natAbs ++ r) := by simp [signOf]
    simp only [this, takeWhile_dec _ r h, if_neg (dec_ne_nil _), digVal_dec, if_true]
    rw [if_pos (by omega)]; congr 1; omega
  · rw [if_neg hi]
    have hne := dec_ne_nil i.toNat
    have hd := dec_digits i.toNat
    generalize hs : dec i.toNat = s at *
    have ht := takeWhile_dec i.toNat r h
    have hv := digVal_dec i.toNat
    rw [hs] at ht hv
    cases s with
    | nil => exact absurd rfl hne
    | cons c s =>
      have hc := hd c (by simp)
      have e1 : (c :: s ++ r).dropWhile isSpace = c :: (s ++ r) := by
        simp [dig_not_space c hc]
      rw [e1]
      have n1 : c ≠ '-' := dig_ne c '-' hc (by decide)
      have n2 : c ≠ '+' := dig_ne c '+' hc (by decide)
      have : signOf (c :: (s ++ r)) = (false, c :: (s ++ r)) := by
        simp [signOf, n1, n2]
      simp only [this]
      rw [List.cons_append] at ht
      rw [ht]
      simp only [if_neg hne, hv]
      simp only [Bool.false_eq_true, if_false]
      rw [if_pos (by omega)]; congr 1; omega

theorem stoi_toStr' (i : Int) (h1 : -2147483648 ≤ i) (h2 : i ≤ 2147483647) : stoi (toStr i) = .ok i := by
  have := stoi_toStr i [] (by intro c hc; simp at hc) h1 h2
  rwa [List.append_nil] at this

/-- Characters of `to_string` output: digits and the minus sign. -/
theorem toStr_chars (i : Int) : ∀ c ∈ toStr i, isDig c = true ∨ c = '-' := by
  intro c hc
  unfold toStr at hc
  split at hc
  · rcases List.mem_cons.1 hc with h | h
    · exact .inr h
    · exact .inl (dec_digits _ c h)
  · exact .inl (dec_digits _ c hc)

theorem toStr_ne_nil (i : Int) : toStr i ≠ [] := by
  unfold toStr; split
  · simp
  · exact dec_ne_nil _

theorem toStr_not_mem (i : Int) (d : Char) (h1 : isDig d = false) (h2 : d ≠ '-') : d ∉ toStr i := by
  intro h
  rcases toStr_chars i d h with h | h
  · rw [h1] at h; exact absurd h (by simp)
  · exact h2 h

theorem split_ne_nil (ds s : Str) : splitMultiple ds s ≠ [] := by
  induction s with
  | nil => simp [splitMultiple]
  | cons c s ih =>
    unfold splitMultiple
    split
    · simp
    · split <;> simp

theorem split_none (ds s : Str) (h : ∀ c ∈ s, c ∉ ds) : splitMultiple ds s = [s] := by
  induction s with
  | nil => rfl
  | cons c s ih =>
    unfold splitMultiple
    rw [if_neg (h c (by simp)), ih (fun c hc => h c (by simp [hc]))]

theorem split_cons (ds a : Str) (c : Char) (b : Str) (h : ∀ x ∈ a, x ∉ ds) (hc : c ∈ ds) :
    splitMultiple ds (a ++ c :: b) = a :: splitMultiple ds b := by
  induction a with
  | nil => simp [splitMultiple, hc]
  | cons x a ih =>
    have := ih (fun c hc => h c (by simp [hc]))
    simp only [List.cons_append]
    rw [splitMultiple, if_neg (h x (by simp)), this]

/-- Splitting loses nothing: the parts with the original delimiters between them are the text;
stated for one delimiter character. -/
theorem join_split (d : Char) (s : Str) : join [d] (splitMultiple [d] s) = s := by
  induction s with
  | nil => rfl
  | cons c s ih =>
    unfold splitMultiple
    have hne := split_ne_nil [d] s
    split
    · rename_i hc
      simp at hc; subst hc
      cases hs : splitMultiple [c] s with
      | nil => exact absurd hs hne
      | cons p ps => rw [hs] at ih; simp [join, ih]
    · cases hs : splitMultiple [d] s with
      | nil => exact absurd hs hne
      | cons p ps =>
        rw [hs] at ih
        cases ps with
        | nil => simp [join] at ih ⊢; exact ih
        | cons q ps => simp [join] at ih ⊢; exact ih

theorem split_join (d : Char) (xs : List Str) (hne : xs ≠ []) (h : ∀ x ∈ xs, d ∉ x) :
    splitMultiple [d] (join [d] xs) = xs := by
  induction xs with
  | nil => exact absurd rfl hne
  | cons x xs ih =>
    cases xs with
    | nil =>
      simp only [join]
      exact split_none _ _ (fun c hc hd => by
        simp at hd; subst hd; exact h x (by simp) hc)
    | cons y ys =>
      simp only [join]
      rw [List.append_assoc, show [d] ++ join [d] (y :: ys) = d :: join [d] (y :: ys) from rfl,
        split_cons [d] x d _ (fun c hc hd => by simp at hd; subst hd; exact h x (by simp) hc) (by simp)]
      rw [ih (by simp) (fun z hz => h z (by exact List.mem_cons_of_mem _ hz))]

end Text
end LDT
