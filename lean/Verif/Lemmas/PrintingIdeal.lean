import Mathlib.Data.Nat.Digits.Lemmas
import Verif.Props.TableText
/-!
# The contract on printing can be met

`demoNumText` reads decimal numbers with the exponent `e-8`, `demoPrinting` writes numbers
rounded to eight decimals in this form. They satisfy `PrintingLaws`.
-/

namespace Disp

/-- The character of a digit. -/
def digitCh (d : ℕ) : Char := Char.ofNat (d + 48)

/-- The value of a digit. -/
def digitVal (c : Char) : ℕ := c.toNat - 48

theorem digitVal_ch {d : ℕ} (h : d < 10) : digitVal (digitCh d) = d := by
  interval_cases d <;> decide

theorem digitCh_isDigit {d : ℕ} (h : d < 10) : (digitCh d).isDigit = true := by
  interval_cases d <;> decide

/-- Decimal digits, with a leading zero. -/
def natText (n : ℕ) : List Char := '0' :: (Nat.digits 10 n).reverse.map digitCh

/-- The number with the given decimal digits. -/
def natVal (ds : List Char) : ℕ := ds.foldl (fun a c => 10 * a + digitVal c) 0

theorem natText_digit {n : ℕ} {c : Char} (h : c ∈ natText n) : c.isDigit = true := by
  rcases List.mem_cons.1 h with rfl | h
  · decide
  · obtain ⟨d, hd, rfl⟩ := List.mem_map.1 h
    exact digitCh_isDigit (Nat.digits_lt_base (by norm_num) (List.mem_reverse.1 hd))

theorem natVal_text (n : ℕ) : natVal (natText n) = n := by
  have h0 : digitVal '0' = 0 := by decide
  rw [natVal, natText, List.foldl_cons, h0, List.foldl_map, List.foldl_reverse]
  conv_rhs => rw [← Nat.ofDigits_digits 10 n, Nat.ofDigits_eq_foldr]
  have hd : ∀ d ∈ Nat.digits 10 n, d < 10 := fun d hd => Nat.digits_lt_base (by norm_num) hd
  generalize Nat.digits 10 n = L at hd
  induction L with
  | nil => rfl
  | cons d L ih =>
    rw [List.foldr_cons, List.foldr_cons, ih (fun e he => hd e (by simp [he])),
      digitVal_ch (hd d (by simp))]
    simp; ring

/-- An integer with its sign. -/
def intText : ℤ → List Char
  | .ofNat n => natText n
  | .negSucc n => '-' :: natText (n + 1)

/-- Reads an optional sign and digits. -/
def intVal : List Char → Option ℤ
  | [] => none
  | c :: cs =>
    if c = '-' then (if cs.all Char.isDigit then some (-(natVal cs : ℤ)) else none)
    else if (c :: cs).all Char.isDigit then some (natVal (c :: cs) : ℤ) else none

theorem intVal_text (k : ℤ) : intVal (intText k) = some k := by
  cases k with
  | ofNat n =>
    rw [intText]
    have h1 : natText n = '0' :: (Nat.digits 10 n).reverse.map digitCh := rfl
    have h2 : (natText n).all Char.isDigit = true := by
      rw [List.all_eq_true]; exact fun c hc => natText_digit hc
    rw [h1, intVal, if_neg (by decide), ← h1, if_pos h2, natVal_text]
    rfl
  | negSucc n =>
    have h2 : (natText (n + 1)).all Char.isDigit = true := by
      rw [List.all_eq_true]; exact fun c hc => natText_digit hc
    rw [intText, intVal, if_pos rfl, if_pos h2, natVal_text]
    rfl

theorem intText_mem {k : ℤ} {c : Char} (h : c ∈ intText k) : c = '-' ∨ c.isDigit = true := by
  cases k with
  | ofNat n => exact Or.inr (natText_digit h)
  | negSucc n =>
    rcases List.mem_cons.1 h with h | h
    · exact Or.inl h
    · exact Or.inr (natText_digit h)

theorem intText_length {k : ℤ} (h : k.natAbs < 10 ^ 15) : (intText k).length ≤ 17 := by
  cases k with
  | ofNat n =>
    have := (Nat.digits_length_le_iff (b := 10) (by norm_num) n).2 h
    simp [intText, natText]; omega
  | negSucc n =>
    have := (Nat.digits_length_le_iff (b := 10) (by norm_num) (n + 1)).2 h
    rw [intText, natText, List.length_cons, List.length_cons, List.length_map, List.length_reverse]
    omega

/-- Reads `nan`, `inf`, `-inf`, and integers followed by `e-8`. -/
noncomputable def demoParse (cs : List Char) : Res XR :=
  if cs = ['n', 'a', 'n'] then .ok .nan
  else if cs = ['i', 'n', 'f'] then .ok .pinf
  else if cs = ['-', 'i', 'n', 'f'] then .ok .ninf
  else match cs.reverse with
    | '8' :: '-' :: 'e' :: r =>
      (match intVal r.reverse with
      | some k => .ok (.fin ((k : ℝ) / 10 ^ 8))
      | none => .error .value)
    | _ => .error .value

/-- Writes a number rounded to eight decimals. -/
noncomputable def demoText : XR → List Char
  | .fin x => intText (XR.rint (x * 10 ^ 8)) ++ ['e', '-', '8']
  | .pinf => ['i', 'n', 'f']
  | .ninf => ['-', 'i', 'n', 'f']
  | .nan => ['n', 'a', 'n']

open Classical in
/-- The number that is written in an array: rounded, and infinite beyond `10^7`. -/
noncomputable def demoShown : XR → XR
  | .fin x => if (XR.rint (x * 10 ^ 8)).natAbs < 10 ^ 15 then .fin (XR.roundDec 8 x) else .pinf
  | y => y

theorem rint_int (k : ℤ) : XR.rint (k : ℝ) = k := by
  simp [XR.rint]

theorem demoText_round (x : XR) : demoText (XR.round 8 x) = demoText x := by
  cases x with
  | fin x =>
    show demoText (.fin (XR.roundDec 8 x)) = _
    simp only [demoText, XR.roundDec]
    rw [div_mul_cancel₀ _ (by positivity), rint_int]
  | pinf => rfl
  | ninf => rfl
  | nan => rfl

theorem demoParse_text (x : XR) : demoParse (demoText x) = .ok (XR.round 8 x) := by
  cases x with
  | fin x =>
    show demoParse (intText _ ++ ['e', '-', '8']) = .ok (.fin (XR.roundDec 8 x))
    generalize hk : XR.rint (x * 10 ^ 8) = k
    have h8 : (intText k ++ ['e', '-', '8']).reverse = '8' :: '-' :: 'e' :: (intText k).reverse := by
      simp
    have hne : ∀ cs : List Char, cs.reverse.head? ≠ some '8' → intText k ++ ['e', '-', '8'] ≠ cs := by
      intro cs hcs he
      apply hcs
      rw [← he, h8]; rfl
    rw [demoParse, if_neg (hne _ (by decide)), if_neg (hne _ (by decide)), if_neg (hne _ (by decide)),
      h8]
    simp only [List.reverse_reverse, intVal_text]
    rw [XR.roundDec, hk]
  | pinf => rw [demoText, demoParse, if_neg (by decide), if_pos rfl]; rfl
  | ninf => rw [demoText, demoParse, if_neg (by decide), if_neg (by decide), if_pos rfl]; rfl
  | nan => rw [demoText, demoParse, if_pos rfl]; rfl

/-- Reading of numbers for the demonstration. -/
noncomputable def demoNumText : NumText XR := ⟨demoParse⟩

/-- Writing of numbers for the demonstration. -/
noncomputable def demoPrinting : Printing XR where
  cell _ x := demoText (demoShown x)
  shown _ x := demoShown x
  fmt8 := demoText
  shown8 := XR.round 8

theorem demoText_mem {x : XR} {c : Char} (h : c ∈ demoText x) :
    c.isDigit = true ∨ c ∈ ['-', 'e', 'i', 'n', 'f', 'a'] := by
  cases x with
  | fin x =>
    rcases List.mem_append.1 h with h | h
    · rcases intText_mem h with rfl | h
      · exact Or.inr (by decide)
      · exact Or.inl h
    · have : c = 'e' ∨ c = '-' ∨ c = '8' := by simpa using h
      rcases this with rfl | rfl | rfl <;> decide
  | pinf =>
    have : c = 'i' ∨ c = 'n' ∨ c = 'f' := by simpa [demoText] using h
    rcases this with rfl | rfl | rfl <;> decide
  | ninf =>
    have : c = '-' ∨ c = 'i' ∨ c = 'n' ∨ c = 'f' := by simpa [demoText] using h
    rcases this with rfl | rfl | rfl | rfl <;> decide
  | nan =>
    have : c = 'n' ∨ c = 'a' ∨ c = 'n' := by simpa [demoText] using h
    rcases this with rfl | rfl | rfl <;> decide

theorem space_not_digit {c : Char} (h : pySpace c = true) :
    ¬ (c.isDigit = true ∨ c ∈ ['-', 'e', 'i', 'n', 'f', 'a']) := by
  have key : ∀ c ∈ pySpaces, ¬ (c.isDigit = true ∨ c ∈ ['-', 'e', 'i', 'n', 'f', 'a']) := by decide
  exact key c (by simpa [pySpace] using h)

theorem demoText_word (x : XR) : Word (demoText x) := by
  refine ⟨?_, ?_⟩
  · cases x with
    | fin x => simp [demoText]
    | pinf => decide
    | ninf => decide
    | nan => decide
  · intro c hc
    by_contra h
    exact space_not_digit (by simpa using h) (demoText_mem hc)

theorem demoText_not_mem {c : Char} (h : ¬ (c.isDigit = true ∨ c ∈ ['-', 'e', 'i', 'n', 'f', 'a']))
    (x : XR) : c ∉ demoText x := fun hc => h (demoText_mem hc)

theorem demoText_length (x : XR) : (demoText (demoShown x)).length ≤ 20 := by
  cases x with
  | fin x =>
    rw [demoShown]
    split
    · rename_i hk
      rw [show (XR.fin (XR.roundDec 8 x)) = XR.round 8 (.fin x) from rfl, demoText_round, demoText,
        List.length_append]
      have := intText_length hk
      simp; omega
    · decide
  | pinf => decide
  | ninf => decide
  | nan => decide

theorem demoShown_round (x : XR) : XR.round 8 (demoShown x) = demoShown x := by
  cases x with
  | fin x =>
    rw [demoShown]
    split
    · show XR.fin (XR.roundDec 8 (XR.roundDec 8 x)) = _
      congr 1
      simp only [XR.roundDec]
      rw [div_mul_cancel₀ _ (by positivity), rint_int]
    · rfl
  | pinf => rfl
  | ninf => rfl
  | nan => rfl

/-- The contract holds for the demonstration. -/
theorem demoPrintingLaws : @PrintingLaws XR demoNumText demoPrinting := by
  refine @PrintingLaws.mk XR demoNumText demoPrinting ?_ ?_ ?_ ?_ ?_
  · intro xs x
    refine ⟨[], demoText (demoShown x), [], ?_, by simp, by simp, demoText_word _,
      demoText_not_mem (by decide) _, demoText_not_mem (by decide) _, demoText_length x, ?_⟩
    · show demoText (demoShown x) = _
      simp
    · show demoParse _ = .ok (demoShown x)
      rw [demoParse_text, demoShown_round]
  · intro xs x c hc
    rcases demoText_mem (x := demoShown x) hc with h | h
    · rw [Char.isDigit] at h
      simp only [Bool.and_eq_true, decide_eq_true_eq] at h
      obtain ⟨h1, h2⟩ := h
      have h1 : 48 ≤ c.toNat := h1
      have h2 : c.toNat ≤ 57 := h2
      omega
    · have : ∀ c ∈ ['-', 'e', 'i', 'n', 'f', 'a'], 32 ≤ c.toNat ∧ c.toNat ≤ 126 ∧
        ¬ (65 ≤ c.toNat ∧ c.toNat ≤ 90) := by decide
      exact this c h
  · intro s e h
    change demoParse s = .error e at h
    unfold demoParse at h
    split at h
    · cases h
    · split at h
      · cases h
      · split at h
        · cases h
        · split at h
          · split at h
            · cases h
            · cases h; rfl
          · cases h; rfl
  · show demoParse dots = .error .value
    rw [demoParse, if_neg (by decide), if_neg (by decide), if_neg (by decide)]
    rfl
  · intro x
    exact ⟨demoText_word _, demoText_not_mem (by decide) _, demoText_not_mem (by decide) _,
      demoText_not_mem (by decide) _, demoParse_text x⟩

end Disp
