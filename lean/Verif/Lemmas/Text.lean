import Verif.Spec.Lines
/-!
# Facts about splitting text
-/

namespace Disp

theorem splitSpaces_blank {s r : List Char} (h : ∀ c ∈ s, pySpace c = true) :
    splitSpaces (s ++ r) = splitSpaces r := by
  induction s with
  | nil => rfl
  | cons c s ih =>
    have hc := h c (List.mem_cons_self ..)
    rw [List.cons_append]
    rw [splitSpaces, if_pos hc]
    exact ih (fun d hd => h d (List.mem_cons_of_mem _ hd))

theorem splitSpaces_all_blank {s : List Char} (h : ∀ c ∈ s, pySpace c = true) :
    splitSpaces s = [] := by
  have := splitSpaces_blank (r := []) h
  rwa [List.append_nil] at this

theorem splitSpaces_word {t : List Char} (ht : Word t) {r : List Char}
    (hr : ∀ c ∈ r.head?, pySpace c = true) :
    splitSpaces (t ++ r) = t :: splitSpaces r := by
  obtain ⟨hne, hall⟩ := ht
  induction t with
  | nil => exact absurd rfl hne
  | cons c t ih =>
    have hc := hall c (List.mem_cons_self ..)
    cases t with
    | nil =>
      cases r with
      | nil => simp [splitSpaces, hc, startsWord, glue]
      | cons d r =>
        have hd : pySpace d = true := hr d rfl
        simp [splitSpaces, hc, hd, startsWord, glue]
    | cons e t =>
      have he := hall e (by simp)
      have := ih (by simp) (fun d hd => hall d (List.mem_cons_of_mem _ hd))
      rw [List.cons_append, splitSpaces, this]
      simp [hc, he, startsWord, glue]

theorem splitSpaces_line {ts : List (List Char)} {l : List Char} (h : LineOf ts l) :
    splitSpaces l = ts := by
  induction h with
  | blank h => exact splitSpaces_all_blank h
  | word hs ht hsep _ ih =>
    rw [List.append_assoc, splitSpaces_blank hs, splitSpaces_word ht hsep, ih]

theorem isBlank_iff {l : List Char} : isBlank l = true ↔ ∀ c ∈ l, pySpace c = true := by
  simp [isBlank]

theorem LineOf.isBlank {ts : List (List Char)} {l : List Char} (h : LineOf ts l) :
    isBlank l = true ↔ ts = [] := by
  cases h with
  | blank h => simp only [isBlank_iff, iff_true]; exact h
  | word hs ht hsep _ =>
    constructor
    · intro hb
      rw [isBlank_iff] at hb
      obtain ⟨hne, hall⟩ := ht
      rename_i s t rest ts _
      cases t with
      | nil => exact absurd rfl hne
      | cons c t =>
        have h1 := hb c (by simp)
        rw [hall c (List.mem_cons_self ..)] at h1
        cases h1
    · intro h; cases h

theorem splitOnChar_ne_nil (d : Char) (l : List Char) : splitOnChar d l ≠ [] := by
  cases l with
  | nil => simp [splitOnChar]
  | cons c cs =>
    rw [splitOnChar]
    split
    · simp
    · split <;> simp

theorem splitOnChar_none {d : Char} {l : List Char} (h : d ∉ l) : splitOnChar d l = [l] := by
  induction l with
  | nil => rfl
  | cons c cs ih =>
    rw [splitOnChar, if_neg (by rintro rfl; exact h (List.mem_cons_self ..)),
      ih (fun hm => h (List.mem_cons_of_mem _ hm))]

theorem splitOnChar_append {d : Char} {l r : List Char} (h : d ∉ l) :
    splitOnChar d (l ++ d :: r) = l :: splitOnChar d r := by
  induction l with
  | nil => simp [splitOnChar]
  | cons c cs ih =>
    rw [List.cons_append, splitOnChar, if_neg (by rintro rfl; exact h (List.mem_cons_self ..)),
      ih (fun hm => h (List.mem_cons_of_mem _ hm))]

/-- `text.split('\n')` recovers the lines. -/
theorem splitOnChar_unlines {ls : List (List Char)} (hne : ls ≠ [])
    (h : ∀ l ∈ ls, '\n' ∉ l) : splitOnChar '\n' (unlines ls) = ls := by
  induction ls with
  | nil => exact absurd rfl hne
  | cons l ls ih =>
    cases ls with
    | nil => exact splitOnChar_none (h l (List.mem_cons_self ..))
    | cons m ls =>
      rw [unlines, splitOnChar_append (h l (List.mem_cons_self ..)),
        ih (by simp) (fun x hx => h x (List.mem_cons_of_mem _ hx))]

end Disp
