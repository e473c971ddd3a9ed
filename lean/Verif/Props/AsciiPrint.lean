import Verif.Model.Ascii
import Mathlib.Data.List.Basic
/-!
# Printing drops exactly the characters that are not ASCII (C66)
-/

namespace Disp

namespace Spec

/-- The code points of a text: those below 0x110000. -/
def IsText (s : CodePoints) : Prop := ∀ c ∈ s, c < 0x110000

/-- A surrogate, which is no character. -/
def Surrogate (c : Nat) : Prop := 0xD800 ≤ c ∧ c ≤ 0xDFFF

/-- ASCII characters. -/
def Ascii (c : Nat) : Bool := c < 128

end Spec

open Spec

theorem utf8Char_ok {c : Nat} (h : ¬ Surrogate c) :
    ∃ bs, utf8Char c = .ok bs ∧ bs.filter (· < 0x80) = if Ascii c then [c] else [] := by
  unfold utf8Char
  have hs : ¬ (0xD800 ≤ c ∧ c ≤ 0xDFFF) := h
  by_cases h1 : c < 0x80
  · exact ⟨_, by rw [if_pos h1], by simp [Ascii, h1]⟩
  · rw [if_neg h1]
    have ha : Ascii c = false := by simpa [Ascii] using h1
    simp only [ha, Bool.false_eq_true, if_false]
    by_cases h2 : c < 0x800
    · exact ⟨_, by rw [if_pos h2], by simp; omega⟩
    · rw [if_neg h2, if_neg hs]
      by_cases h3 : c < 0x10000
      · exact ⟨_, by rw [if_pos h3], by simp; omega⟩
      · exact ⟨_, by rw [if_neg h3], by simp; omega⟩

theorem utf8Char_surrogate {c : Nat} (h : Surrogate c) : utf8Char c = .error .value := by
  obtain ⟨h1, h2⟩ := h
  unfold utf8Char
  rw [if_neg (by omega), if_neg (by omega), if_pos ⟨h1, h2⟩]

/-- The bytes of a character are those of the UTF-8 encoder of Lean's library, which is written and
verified independently of this model. -/
theorem utf8Char_char (c : Char) :
    utf8Char c.toNat = .ok ((String.utf8EncodeChar c).map UInt8.toNat) := by
  have hv : c.toNat < 0x110000 ∧ ¬ (0xD800 ≤ c.toNat ∧ c.toNat ≤ 0xDFFF) := by
    rcases c.valid with h | h
    · have : c.toNat < 0xd800 := h
      omega
    · have h1 : 0xdfff < c.toNat := h.1
      have h2 : c.toNat < 0x110000 := h.2
      omega
  have hc : c.val.toNat = c.toNat := rfl
  obtain ⟨h1, h2⟩ := hv
  unfold utf8Char String.utf8EncodeChar
  simp only [hc]
  split_ifs <;> first | omega | (simp [UInt8.toNat_ofNat']; try omega)

/-- The bytes of a text are those of Lean's library. -/
theorem utf8Encode_string (l : List Char) :
    utf8Encode (l.map Char.toNat) = .ok ((l.flatMap String.utf8EncodeChar).map UInt8.toNat) := by
  have h : (l.map Char.toNat).mapM utf8Char
      = .ok (l.map fun c => (String.utf8EncodeChar c).map UInt8.toNat) := by
    induction l with
    | nil => rfl
    | cons c l ih =>
      rw [List.map_cons, List.mapM_cons, utf8Char_char]
      simp only [bind, Except.bind, ih]
      rfl
  simp only [utf8Encode, h, bind, Except.bind]
  congr 1
  clear h
  induction l with
  | nil => rfl
  | cons c l ih => simp [ih]


/-- **C66**, for texts without surrogates: what is left is exactly the ASCII characters, in
order. -/
theorem C66_ascii_partial (s : CodePoints) (h : ∀ c ∈ s, ¬ Surrogate c) :
    utf8ToAscii s = .ok (s.filter Ascii) := by
  have key : ∃ bss, s.mapM utf8Char = .ok bss ∧ bss.flatten.filter (· < 0x80) = s.filter Ascii := by
    induction s with
    | nil => exact ⟨[], rfl, rfl⟩
    | cons c s ih =>
      obtain ⟨bs, hb, hf⟩ := utf8Char_ok (h c (by simp))
      obtain ⟨bss, hbs, hfs⟩ := ih (fun c hc => h c (by simp [hc]))
      refine ⟨bs :: bss, by simp [hb, hbs, bind, Except.bind, pure, Except.pure], ?_⟩
      rw [List.flatten_cons, List.filter_append, hf, hfs, List.filter_cons]
      cases Ascii c <;> rfl
  obtain ⟨bss, h1, h2⟩ := key
  simp only [utf8ToAscii, utf8Encode, h1, bind, Except.bind, asciiDecode]
  rw [h2]

/-- A surrogate anywhere in the text makes printing fail with a ValueError. -/
theorem C66_surrogate (s : CodePoints) (h : ∃ c ∈ s, Surrogate c) :
    utf8ToAscii s = .error .value := by
  have key : s.mapM utf8Char = .error .value := by
    induction s with
    | nil => simp at h
    | cons c s ih =>
      by_cases hc : Surrogate c
      · simp [utf8Char_surrogate hc, bind, Except.bind]
      · obtain ⟨bs, hb, -⟩ := utf8Char_ok hc
        obtain ⟨d, hd, hs⟩ := h
        have hd' : d ∈ s := by
          rcases List.mem_cons.1 hd with rfl | hd
          · exact absurd hs hc
          · exact hd
        simp [hb, ih ⟨d, hd', hs⟩, bind, Except.bind]
  simp [utf8ToAscii, utf8Encode, key, bind, Except.bind]

/-- **C66** for the two methods: the ASCII characters of the field and a line end are printed. -/
theorem C66_print_partial (md : List (String × CodePoints)) (key : String) (s : CodePoints)
    (hk : dictGet md key = .ok s) (h : ∀ c ∈ s, ¬ Surrogate c) :
    printField md key = .ok (s.filter Ascii ++ [10]) := by
  simp only [printField, hk, C66_ascii_partial s h, bind, Except.bind]

/-- **C66** as stated. -/
def C66_statement : Prop := ∀ s : CodePoints, IsText s → utf8ToAscii s = .ok (s.filter Ascii)

/-- C66 is false for texts with a surrogate. -/
theorem C66_refuted : ¬ C66_statement := by
  intro h
  have h1 := h [0x61, 0xD800] (by simp [IsText])
  rw [C66_surrogate _ ⟨0xD800, by simp, by decide, by decide⟩] at h1
  cases h1

/-- A name with an umlaut, a Greek letter and an emoji. -/
example : utf8ToAscii [0x4D, 0xFC, 0x3B1, 0x1F600, 0x20AC, 0x62] = .ok [0x4D, 0x62] := by
  rw [C66_ascii_partial _ (by simp [Surrogate])]
  decide

/-- A comment. -/
example : printField [("Reference", []), ("Comment", [0xB5, 0x6D])] "Comment" =
    .ok [0x6D, 0x0A] := by
  rw [C66_print_partial _ _ [0xB5, 0x6D] rfl (by simp [Surrogate])]
  decide

end Disp
