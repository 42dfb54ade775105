import Verif.Model.TextIO
import Verif.Lemmas.Ieee
import Verif.Lemmas.Outcome
import Mathlib.Tactic.Linarith
import Mathlib.Tactic.IntervalCases
import Mathlib.Tactic.FinCases
import Mathlib.Tactic.FieldSimp
import Mathlib.Tactic.Ring

/-! Helper lemmas: text streams and the input and output of numbers. -/

namespace Verif

theorem digitC_cases (d : ℕ) : digitC d ∈ ['0', '1', '2', '3', '4', '5', '6', '7', '8', '9'] := by
  unfold digitC
  have h : d % 10 < 10 := Nat.mod_lt _ (by norm_num)
  generalize d % 10 = k at h
  interval_cases k <;> decide

theorem digitC_val (d : ℕ) : (digitC d).toNat - 48 = d % 10 := by
  unfold digitC
  have h : d % 10 < 10 := Nat.mod_lt _ (by norm_num)
  generalize d % 10 = k at h
  interval_cases k <;> decide

theorem digitC_digit (d : ℕ) : isDigitC (digitC d) = true := by
  have := digitC_cases d
  generalize digitC d = c at this
  fin_cases this <;> decide

theorem digitC_space (d : ℕ) : isSpaceC (digitC d) = false := by
  have := digitC_cases d
  generalize digitC d = c at this
  fin_cases this <;> decide

theorem digitC_ne {c : Char} (h : isDigitC c = false) (d : ℕ) : digitC d ≠ c := by
  rintro rfl
  rw [digitC_digit] at h
  cases h

theorem natDigits_all (n : ℕ) : ∀ c ∈ natDigits n, ∃ d, c = digitC d := by
  induction n using Nat.strong_induction_on with
  | _ n ih =>
    intro c hc
    rw [natDigits] at hc
    split at hc
    · exact ⟨n, by simpa using hc⟩
    · rename_i h
      rw [List.mem_append] at hc
      rcases hc with hc | hc
      · exact ih (n / 10) (by omega) c hc
      · exact ⟨n, by simpa using hc⟩

theorem natDigits_ne_nil (n : ℕ) : natDigits n ≠ [] := by
  rw [natDigits]
  split <;> simp

theorem padDigits_all (p m : ℕ) : ∀ c ∈ padDigits p m, ∃ d, c = digitC d := by
  induction p generalizing m with
  | zero => intro c hc; simp [padDigits] at hc
  | succ p ih =>
    intro c hc
    rw [padDigits, List.mem_append] at hc
    rcases hc with hc | hc
    · exact ih _ c hc
    · exact ⟨m, by simpa using hc⟩

theorem padDigits_length (p m : ℕ) : (padDigits p m).length = p := by
  induction p generalizing m with
  | zero => rfl
  | succ p ih => simp [padDigits, ih]

theorem digitsValue_append_digit (l : List Char) (d : ℕ) :
    digitsValue (l ++ [digitC d]) = 10 * digitsValue l + d % 10 := by
  unfold digitsValue
  rw [List.foldl_append]
  simp [digitC_val]

theorem natDigits_value (n : ℕ) : digitsValue (natDigits n) = n := by
  induction n using Nat.strong_induction_on with
  | _ n ih =>
    rw [natDigits]
    split
    · rename_i h
      have := digitsValue_append_digit [] n
      rw [List.nil_append] at this
      rw [this]
      change 10 * 0 + n % 10 = n
      omega
    · rename_i h
      rw [digitsValue_append_digit, ih (n / 10) (by omega)]
      omega

theorem padDigits_value (l : List Char) (p m : ℕ) :
    digitsValue (l ++ padDigits p m) = digitsValue l * 10 ^ p + m % 10 ^ p := by
  induction p generalizing m with
  | zero => simp [padDigits, Nat.mod_one]
  | succ p ih =>
    rw [padDigits, ← List.append_assoc, digitsValue_append_digit, ih]
    have h1 : m % 10 ^ (p + 1) = 10 * (m / 10 % 10 ^ p) + m % 10 := by
      rw [pow_succ', Nat.mod_mul]; omega
    rw [h1, pow_succ]; ring

theorem takeWhile_digits {l rest : List Char} (hl : ∀ c ∈ l, ∃ d, c = digitC d)
    (hr : ∀ c, rest.head? = some c → isDigitC c = false) :
    (l ++ rest).takeWhile isDigitC = l ∧ (l ++ rest).dropWhile isDigitC = rest := by
  induction l with
  | nil =>
    rcases rest with _ | ⟨c, t⟩
    · simp
    · have := hr c rfl
      simp [List.takeWhile_cons, List.dropWhile_cons, this]
  | cons a t ih =>
    obtain ⟨d, rfl⟩ := hl a (by simp)
    obtain ⟨h1, h2⟩ := ih (fun c hc => hl c (by simp [hc]))
    simp [List.takeWhile_cons, List.dropWhile_cons, digitC_digit, h1, h2]

theorem scanSign_digit {l : List Char} (h : ∀ c, l.head? = some c → ∃ d, c = digitC d) :
    scanSign l = (false, l) := by
  rcases l with _ | ⟨c, t⟩
  · rfl
  · obtain ⟨d, rfl⟩ := h c rfl
    have hc := digitC_cases d
    generalize digitC d = c at hc
    fin_cases hc <;> rfl

/-- The number with a sign, natural number part `a` and decimals `ds`, as it is read. -/
theorem scanDouble_decimal (neg : Bool) (a : ℕ) (p m : ℕ) (hp : p ≠ 0) {rest : List Char}
    (hr : ∀ c, rest.head? = some c → isDigitC c = false ∧ c ≠ 'e' ∧ c ≠ 'E') :
    scanDouble ((if neg then ['-'] else []) ++ natDigits a ++ ('.' :: padDigits p m) ++ rest)
      = (some ((if neg then -1 else 1) * ((a * 10 ^ p + m % 10 ^ p : ℕ) : ℝ) / 10 ^ p), rest) := by
  obtain ⟨c, t, hct⟩ := List.exists_cons_of_ne_nil (natDigits_ne_nil a)
  have hsign : scanSign ((if neg then ['-'] else []) ++ natDigits a ++ ('.' :: padDigits p m) ++ rest)
      = (neg, natDigits a ++ ('.' :: padDigits p m) ++ rest) := by
    cases neg
    · rw [if_neg (by simp), List.nil_append]
      refine scanSign_digit fun x hx => ?_
      rw [hct] at hx
      simp only [List.cons_append, List.head?_cons, Option.some.injEq] at hx
      exact hx ▸ natDigits_all a c (by rw [hct]; simp)
    · rfl
  have h1 := takeWhile_digits (l := natDigits a) (rest := '.' :: padDigits p m ++ rest)
    (natDigits_all a) (by intro c hc; simp at hc; subst hc; decide)
  have h2 := takeWhile_digits (l := padDigits p m) (rest := rest) (padDigits_all p m)
    (fun c hc => (hr c hc).1)
  have h3 : scanExponent rest = (some 0, rest) := by
    unfold scanExponent
    rw [if_neg]
    rintro (h | h)
    · exact (hr _ h).2.1 rfl
    · exact (hr _ h).2.2 rfl
  unfold scanDouble
  dsimp only
  rw [hsign]
  dsimp only
  rw [List.append_assoc, h1.1, h1.2]
  simp only [List.cons_append, List.head?_cons, if_true, List.tail_cons, h2.1, h2.2, h3]
  rw [if_neg (fun h => natDigits_ne_nil a h.1), padDigits_value, natDigits_value, padDigits_length]
  refine Prod.ext ?_ rfl
  dsimp only
  refine congrArg some ?_
  have e : ((10 : ℝ) ^ ((0 : ℤ) - (p : ℤ))) = 1 / 10 ^ p := by
    rw [zero_sub, zpow_neg, zpow_natCast, one_div]
  rw [e]
  cases neg
  · simp [div_eq_mul_inv]
  · rw [if_pos rfl, if_pos rfl]; ring

/-- A number rounded to `p` decimals. -/
noncomputable def roundDec (p : ℕ) (v : ℝ) : ℝ :=
  (if v < 0 then -1 else 1) * ((Ieee.rne (|v| * 10 ^ p)).toNat : ℝ) / 10 ^ p

theorem scanDouble_showFixed {p : ℕ} (hp : p ≠ 0) (v : ℝ) {rest : List Char}
    (hr : ∀ c, rest.head? = some c → isDigitC c = false ∧ c ≠ 'e' ∧ c ≠ 'E') :
    scanDouble (showFixed p v ++ rest) = (some (roundDec p v), rest) := by
  unfold showFixed roundDec
  dsimp only
  rw [if_neg hp]
  generalize (Ieee.rne (|v| * 10 ^ p)).toNat = m
  have := scanDouble_decimal (decide (v < 0)) (m / 10 ^ p) p m hp hr
  simp only [decide_eq_true_eq] at this
  rw [this]
  refine Prod.ext ?_ rfl
  dsimp only
  rw [mul_comm (m / 10 ^ p), Nat.div_add_mod]

theorem scanInt_showInt {i : ℤ} (h : -2 ^ 31 ≤ i ∧ i < 2 ^ 31) {rest : List Char}
    (hr : ∀ c, rest.head? = some c → isDigitC c = false) :
    scanInt (showInt i ++ rest) = (some i, rest) := by
  have h1 := takeWhile_digits (l := natDigits i.natAbs) (rest := rest) (natDigits_all _) hr
  obtain ⟨c, t, hct⟩ := List.exists_cons_of_ne_nil (natDigits_ne_nil i.natAbs)
  have hsign : scanSign (showInt i ++ rest) = (decide (i < 0), natDigits i.natAbs ++ rest) := by
    unfold showInt
    by_cases h0 : i < 0
    · rw [if_pos h0]; simp [scanSign, h0]
    · rw [if_neg h0, decide_eq_false h0]
      refine scanSign_digit fun x hx => ?_
      rw [hct] at hx
      simp only [List.cons_append, List.head?_cons, Option.some.injEq] at hx
      exact hx ▸ natDigits_all _ c (by rw [hct]; simp)
  unfold scanInt
  dsimp only
  rw [hsign]
  dsimp only
  rw [h1.1, h1.2, if_neg (natDigits_ne_nil _), natDigits_value]
  have e : (if decide (i < 0) = true then -((i.natAbs : ℕ) : ℤ) else ((i.natAbs : ℕ) : ℤ)) = i := by
    by_cases h0 : i < 0
    · rw [if_pos (by simpa using h0)]; omega
    · rw [if_neg (by simpa using h0)]; omega
  rw [e, if_pos h]

theorem showFixed_chars (p : ℕ) (v : ℝ) : showFixed p v ≠ [] ∧
    ∀ c ∈ showFixed p v, isSpaceC c = false := by
  unfold showFixed
  dsimp only
  generalize (Ieee.rne (|v| * 10 ^ p)).toNat = m
  constructor
  · simp [natDigits_ne_nil]
  · intro c hc
    simp only [List.mem_append] at hc
    rcases hc with (hc | hc) | hc
    · split at hc
      · simp at hc; subst hc; decide
      · simp at hc
    · obtain ⟨d, rfl⟩ := natDigits_all _ c hc
      exact digitC_space d
    · split at hc
      · simp at hc
      · rw [List.mem_cons] at hc
        rcases hc with rfl | hc
        · decide
        · obtain ⟨d, rfl⟩ := padDigits_all _ _ c hc
          exact digitC_space d

theorem showInt_chars (i : ℤ) : showInt i ≠ [] ∧ ∀ c ∈ showInt i, isSpaceC c = false := by
  unfold showInt
  constructor
  · split <;> simp [natDigits_ne_nil]
  · intro c hc
    split at hc
    · rw [List.mem_cons] at hc
      rcases hc with rfl | hc
      · decide
      · obtain ⟨d, rfl⟩ := natDigits_all _ c hc
        exact digitC_space d
    · obtain ⟨d, rfl⟩ := natDigits_all _ c hc
      exact digitC_space d

theorem dropWhile_space {ws tok : List Char} (hws : ∀ c ∈ ws, isSpaceC c = true)
    (ht : ∀ c, tok.head? = some c → isSpaceC c = false) :
    (ws ++ tok).dropWhile isSpaceC = tok := by
  induction ws with
  | nil =>
    rcases tok with _ | ⟨c, t⟩
    · rfl
    · simp [List.dropWhile_cons, ht c rfl]
  | cons a t ih =>
    simp [List.dropWhile_cons, hws a (by simp), ih (fun c hc => hws c (by simp [hc]))]

theorem takeWhile_token {tok : List Char} {s : Char} {rest : List Char}
    (ht : ∀ c ∈ tok, isSpaceC c = false) (hs : isSpaceC s = true) :
    (tok ++ s :: rest).takeWhile (fun c => !isSpaceC c) = tok ∧
      (tok ++ s :: rest).dropWhile (fun c => !isSpaceC c) = s :: rest := by
  induction tok with
  | nil => simp [List.takeWhile_cons, List.dropWhile_cons, hs]
  | cons a t ih =>
    obtain ⟨h1, h2⟩ := ih fun c hc => ht c (by simp [hc])
    simp [List.takeWhile_cons, List.dropWhile_cons, ht a (by simp), h1, h2]

/-- Reading a token that white space follows. -/
theorem readNextToken_token {ws tok : List Char} {s : Char} {rest : List Char}
    (hws : ∀ c ∈ ws, isSpaceC c = true) (hne : tok ≠ []) (ht : ∀ c ∈ tok, isSpaceC c = false)
    (hs : isSpaceC s = true) :
    readNextToken ⟨ws ++ (tok ++ s :: rest), false, false⟩ = (tok, ⟨s :: rest, false, false⟩) := by
  obtain ⟨a, t, rfl⟩ := List.exists_cons_of_ne_nil hne
  have h1 : (ws ++ (a :: t ++ s :: rest)).dropWhile isSpaceC = a :: (t ++ s :: rest) :=
    dropWhile_space hws (by intro c hc; simp at hc; subst hc; exact ht _ (by simp))
  have h2 := takeWhile_token (tok := t) (s := s) (rest := rest) (fun c hc => ht c (by simp [hc])) hs
  unfold readNextToken
  simp only [IStream.good, Bool.not_false, Bool.and_self, if_true]
  rw [h1]
  dsimp only
  rw [h2.1, h2.2]

theorem parseType_ok {T : Type} {scan : List Char → Option T × List Char} {tok : List Char} {x : T}
    (hne : tok ≠ []) (ht : ∀ c ∈ tok, isSpaceC c = false) (h : scan tok = (some x, [])) :
    parseType scan tok = .ok x := by
  obtain ⟨a, t, rfl⟩ := List.exists_cons_of_ne_nil hne
  have h1 : (a :: t).dropWhile isSpaceC = a :: t := by
    simp [List.dropWhile_cons, ht a (by simp)]
  unfold parseType IStream.extract IStream.openOn
  simp only [IStream.good, Bool.not_false, Bool.and_self, if_true]
  rw [h1]
  dsimp only
  rw [h]
  simp [IStream.get, IStream.good]

theorem readNext_ok {T : Type} {scan : List Char → Option T × List Char} {ws tok : List Char} {s : Char}
    {rest : List Char} {x : T} (hws : ∀ c ∈ ws, isSpaceC c = true) (hne : tok ≠ [])
    (ht : ∀ c ∈ tok, isSpaceC c = false) (hs : isSpaceC s = true) (h : scan tok = (some x, [])) :
    readNext scan ⟨ws ++ (tok ++ s :: rest), false, false⟩ = .ok (x, ⟨s :: rest, false, false⟩) := by
  unfold readNext
  dsimp only
  rw [readNextToken_token hws hne ht hs]
  dsimp only
  rw [if_neg hne]
  simp only [Res.monad_bind_eq, parseType_ok hne ht h, Res.bind_ok]

theorem readNext_double {ws : List Char} (hws : ∀ c ∈ ws, isSpaceC c = true) {p : ℕ} (hp : p ≠ 0)
    (v : ℝ) {s : Char} (hs : isSpaceC s = true) (rest : List Char) :
    readNext scanDouble ⟨ws ++ (showFixed p v ++ s :: rest), false, false⟩
      = .ok (roundDec p v, ⟨s :: rest, false, false⟩) := by
  refine readNext_ok hws (showFixed_chars p v).1 (showFixed_chars p v).2 hs ?_
  have := scanDouble_showFixed hp v (rest := []) (by simp)
  rwa [List.append_nil] at this

theorem readNext_int {ws : List Char} (hws : ∀ c ∈ ws, isSpaceC c = true) {i : ℤ}
    (h : -2 ^ 31 ≤ i ∧ i < 2 ^ 31) {s : Char} (hs : isSpaceC s = true) (rest : List Char) :
    readNext scanInt ⟨ws ++ (showInt i ++ s :: rest), false, false⟩
      = .ok (i, ⟨s :: rest, false, false⟩) := by
  refine readNext_ok hws (showInt_chars i).1 (showInt_chars i).2 hs ?_
  have := scanInt_showInt h (rest := []) (by simp)
  rwa [List.append_nil] at this

theorem extract_double {ws : List Char} (hws : ∀ c ∈ ws, isSpaceC c = true) {p : ℕ} (hp : p ≠ 0)
    (v : ℝ) {s : Char} (hs : isSpaceC s = true) (rest : List Char) :
    IStream.extract scanDouble ⟨ws ++ (showFixed p v ++ s :: rest), false, false⟩
      = (some (roundDec p v), ⟨s :: rest, false, false⟩) := by
  have hc := showFixed_chars p v
  obtain ⟨a, t, hat⟩ := List.exists_cons_of_ne_nil hc.1
  have h1 : (ws ++ (showFixed p v ++ s :: rest)).dropWhile isSpaceC = a :: (t ++ s :: rest) := by
    rw [dropWhile_space hws, hat]; rfl
    intro c hc'
    rw [hat] at hc'
    simp at hc'
    subst hc'
    exact hc.2 _ (by rw [hat]; simp)
  have hsp : isDigitC s = false ∧ s ≠ 'e' ∧ s ≠ 'E' := by
    unfold isSpaceC at hs
    simp only [Bool.or_eq_true, decide_eq_true_eq] at hs
    rcases hs with ((((h | h) | h) | h) | h) | h <;> subst h <;> decide
  have h2 := scanDouble_showFixed hp v (rest := s :: rest)
    (by intro c hc; simp at hc; subst hc; exact hsp)
  rw [hat] at h2
  unfold IStream.extract
  simp only [IStream.good, Bool.not_false, Bool.and_self, if_true]
  rw [h1]
  dsimp only
  rw [show a :: (t ++ s :: rest) = a :: t ++ s :: rest from rfl, h2]
  simp

end Verif
