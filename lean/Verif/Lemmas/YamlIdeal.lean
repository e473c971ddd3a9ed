import Mathlib.Logic.Equiv.List
import Verif.Spec.Yaml
import Verif.Lemmas.PrintingIdeal
/-!
# The contract on YAML can be met

`demoYaml` writes a brace and a number that encodes the mapping.
-/

namespace Disp

open Spec

variable {F : Type}

/-- A mapping of text. -/
abbrev DemoCode := List (List ℕ × (List ℕ ⊕ List (List ℕ × List ℕ) ⊕
  List (List (List ℕ × Option (List ℕ)))))

def strCode (s : String) : List ℕ := s.toList.map Char.toNat
def strOf (l : List ℕ) : String := String.ofList (l.map Char.ofNat)

theorem strOf_code (s : String) : strOf (strCode s) = s := by
  rw [strOf, strCode, List.map_map]
  have : (Char.ofNat ∘ Char.toNat) = id := funext (fun c => Char.ofNat_toNat c)
  rw [this, List.map_id, String.ofList_toList]

def dvalCode : DVal F → Option (List ℕ)
  | .str s => some (strCode s)
  | _ => Option.none

def dvalOf : Option (List ℕ) → DVal F
  | some l => .str (strOf l)
  | Option.none => .none

def dsetCode (d : Dataset F) : List (List ℕ × Option (List ℕ)) :=
  d.map (fun p => (strCode p.1, dvalCode p.2))

def dsetOf (d : List (List ℕ × Option (List ℕ))) : Dataset F :=
  d.map (fun p => (strOf p.1, dvalOf p.2))

theorem dsetOf_code {d : Dataset F} (h : TextDataset d) : dsetOf (dsetCode d) = d := by
  rw [dsetOf, dsetCode, List.map_map]
  conv_rhs => rw [← List.map_id d]
  refine List.map_congr_left (fun p hp => ?_)
  obtain ⟨k, v⟩ := p
  rcases (h.2 _ hp).2 with e | ⟨s, e, _⟩
  · have e : v = .none := e
    subst e
    simp [strOf_code, dvalCode, dvalOf]
  · have e : v = .str s := e
    subst e
    simp [strOf_code, dvalCode, dvalOf]

def valCode : YVal F → List ℕ ⊕ List (List ℕ × List ℕ) ⊕ List (List (List ℕ × Option (List ℕ)))
  | .entry (.str s) => .inl (strCode s)
  | .entry (.dict d) => .inr (.inl (d.map (fun p => (strCode p.1, strCode p.2))))
  | .data ds => .inr (.inr (ds.map dsetCode))

def valOf : List ℕ ⊕ List (List ℕ × List ℕ) ⊕ List (List (List ℕ × Option (List ℕ))) → YVal F
  | .inl s => .entry (.str (strOf s))
  | .inr (.inl d) => .entry (.dict (d.map (fun p => (strOf p.1, strOf p.2))))
  | .inr (.inr ds) => .data (ds.map dsetOf)

theorem valOf_code {v : YVal F} (h : TextValue v) : valOf (valCode v) = v := by
  match v with
  | .entry (.str s) => simp [valCode, valOf, strOf_code]
  | .entry (.dict d) =>
    have : (d.map (fun p => (strCode p.1, strCode p.2))).map (fun p => (strOf p.1, strOf p.2)) = d := by
      rw [List.map_map]
      conv_rhs => rw [← List.map_id d]
      exact List.map_congr_left (fun p _ => by simp [strOf_code])
    simp only [valCode, valOf, this]
  | .data ds =>
    have : (ds.map dsetCode).map (dsetOf (F := F)) = ds := by
      rw [List.map_map]
      conv_rhs => rw [← List.map_id ds]
      exact List.map_congr_left (fun d hd => dsetOf_code (h d hd))
    simp only [valCode, valOf, this]

def mapCode (yd : YDict F) : DemoCode := yd.map (fun p => (strCode p.1, valCode p.2))
def mapOf (c : DemoCode) : YDict F := c.map (fun p => (strOf p.1, valOf p.2))

theorem mapOf_code {yd : YDict F} (h : TextMapping yd) : mapOf (mapCode yd) = yd := by
  rw [mapOf, mapCode, List.map_map]
  conv_rhs => rw [← List.map_id yd]
  exact List.map_congr_left (fun p hp => by simp [strOf_code, valOf_code (h.values p hp)])

/-- The text behind the last brace. -/
def behindBrace (t : List Char) : List Char := (t.reverse.takeWhile (fun c => c ≠ '{')).reverse

theorem behindBrace_eq (pre : List Char) {t : List Char} (h : '{' ∉ t) :
    behindBrace (pre ++ '{' :: t) = t := by
  have h1 : ∀ c ∈ t.reverse, decide (c ≠ '{') = true := by
    intro c hc
    simp only [decide_eq_true_eq]
    rintro rfl; exact h (List.mem_reverse.1 hc)
  have e : (pre ++ '{' :: t).reverse = t.reverse ++ '{' :: pre.reverse := by simp
  rw [behindBrace, e, List.takeWhile_append_of_pos h1]
  simp

/-- A YAML library for mappings of text. -/
@[reducible] def demoYaml : YamlIO F where
  dump yd := '{' :: natText (Encodable.encode (mapCode yd))
  load t := match Encodable.decode (α := DemoCode) (natVal (behindBrace t)) with
    | some c => .ok (mapOf c)
    | Option.none => .error .value

theorem sameValue_refl {v : YVal F} : SameValue v v := by
  match v with
  | .entry (.str s) => exact .text s
  | .entry (.dict d) => exact .dict (.refl _)
  | .data ds => exact .data (List.forall₂_same.2 (fun _ _ => .refl _))

theorem sameMapping_refl (yd : YDict F) : SameMapping yd yd :=
  ⟨yd, .refl _, List.forall₂_same.2 (fun _ _ => ⟨rfl, sameValue_refl⟩)⟩

theorem demoYaml_load {yd : YDict F} (h : TextMapping yd) (pre : List Char) :
    (demoYaml (F := F)).load (pre ++ (demoYaml (F := F)).dump yd) = .ok yd := by
  have hb : '{' ∉ natText (Encodable.encode (mapCode yd)) := by
    intro hm
    have := natText_digit hm
    revert this; decide
  show (match Encodable.decode (α := DemoCode) (natVal (behindBrace (pre ++ '{' :: _))) with
    | some c => (Except.ok (mapOf c) : Res (YDict F))
    | Option.none => Except.error .value) = _
  rw [behindBrace_eq pre hb, natVal_text, Encodable.encodek]
  show Except.ok (mapOf (mapCode yd)) = _
  rw [mapOf_code h]

theorem demoYamlLaws : letI := demoYaml (F := F); YamlLaws F := by
  letI := demoYaml (F := F)
  refine ⟨?_, ?_, ?_, ?_⟩
  · intro yd _ c hc
    have : c = '{' := by
      have : some '{' = some c := hc
      exact (Option.some.inj this).symm
    subst this; decide
  · intro yd _ hm
    rcases List.mem_cons.1 hm with h | h
    · exact absurd h (by decide)
    · have := natText_digit h
      revert this; decide
  · intro yd h
    exact ⟨yd, demoYaml_load h [], sameMapping_refl yd⟩
  · intro yd h bs _
    refine ⟨yd, ?_, sameMapping_refl yd⟩
    have := demoYaml_load h (hashLines bs ++ ['\n'])
    rw [List.append_assoc] at this
    exact this

end Disp
