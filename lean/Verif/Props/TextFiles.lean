import Verif.Props.ReaderOrder
/-!
# C45, C46, C47: reading back a text file
-/

namespace Disp

/-! ## The text of a file -/

/-- A value that is a single line without leading blanks. -/
def Clean (v : List Char) : Prop := OneLine v ∧ ∀ c ∈ v.head?, pySpace c = false

theorem dictGet_filter {α : Type} (d : List (String × α)) {k x : String} (h : x ≠ k) :
    dictGet (d.filter (fun p => p.1 ≠ k)) x = dictGet d x := by
  induction d with
  | nil => rfl
  | cons p d ih =>
    obtain ⟨a, b⟩ := p
    by_cases ha : a = k
    · have : ¬ a = x := fun e => h (e.symm.trans ha)
      rw [List.filter_cons_of_neg (by simp [ha]), dictGet, if_neg this]
      exact ih
    · rw [List.filter_cons_of_pos (by simp [ha]), dictGet, ih, dictGet]

/-- The replacement of line feeds by comment lines. -/
theorem mark_lines : ∀ t : List Char,
    '#' :: t.flatMap (fun c => if c = '\n' then ['\n', '#'] else [c]) ++ ['\n'] =
      hashLines (splitOnChar '\n' t)
  | [] => rfl
  | c :: cs => by
    have ih := mark_lines cs
    rw [List.flatMap_cons, splitOnChar]
    by_cases h : c = '\n'
    · rw [if_pos h, if_pos h, hashLines_cons, ← ih]
      simp
    · rw [if_neg h, if_neg h]
      cases hs : splitOnChar '\n' cs with
      | nil => exact absurd hs (splitOnChar_ne_nil _ _)
      | cons w ws =>
        rw [hs, hashLines_cons] at ih
        rw [hashLines_cons]
        have ih' : cs.flatMap (fun c => if c = '\n' then ['\n', '#'] else [c]) ++ ['\n'] =
            w ++ '\n' :: hashLines ws := by
          simpa using ih
        simp [ih']

theorem commentBlock_eq (t : List Char) :
    commentBlock t false = hashLines (splitOnChar '\n' (rstripNl t)) := by
  rw [commentBlock, ← mark_lines]
  simp

/-- A header made of lines becomes a block of comment lines, the last of which is blank. -/
theorem header_lines (ls : List (List Char)) (h : ∀ l ∈ ls, '\n' ∉ l) (rest : List Char) :
    '#' :: ' ' :: (ls.flatMap (fun l => l ++ ['\n'])).flatMap
        (fun c => if c = '\n' then ['\n', '#', ' '] else [c]) ++ '\n' :: rest =
      hashLines (ls.map (' ' :: ·) ++ [[' ']]) ++ rest := by
  induction ls with
  | nil => rfl
  | cons l ls ih =>
    have ih' := ih (fun m hm => h m (List.mem_cons_of_mem _ hm))
    have hl : l.flatMap (fun c => if c = '\n' then ['\n', '#', ' '] else [c]) = l := by
      have hn := h l (List.mem_cons_self ..)
      clear ih ih' h
      induction l with
      | nil => rfl
      | cons c l ih2 =>
        rw [List.flatMap_cons, if_neg (by rintro rfl; exact hn (List.mem_cons_self ..)),
          ih2 (fun hm => hn (List.mem_cons_of_mem _ hm))]
        rfl
    rw [List.flatMap_cons, List.flatMap_append, List.flatMap_append, hl, List.map_cons]
    rw [show (' ' :: l) :: List.map (fun x => ' ' :: x) ls ++ [[' ']] =
      (' ' :: l) :: (List.map (fun x => ' ' :: x) ls ++ [[' ']]) from rfl, hashLines_cons]
    have h1 : (['\n'] : List Char).flatMap (fun c => if c = '\n' then ['\n', '#', ' '] else [c]) =
      ['\n', '#', ' '] := rfl
    rw [h1]
    simp only [List.cons_append, List.append_assoc, List.nil_append] at ih' ⊢
    rw [ih']

/-- The header lines of the metadata: aliases and values. -/
def metaPairs (md : List (String × MetaVal)) (keys : List String) : List (String × List Char) :=
  keys.filterMap (fun k => match dictGet md k with
    | .ok (.str s) => (match dictGet keyAliases k with
      | .ok al => some (al, s.toList)
      | .error _ => none)
    | _ => none)

/-- A header line without its line feed. -/
def pairLine (p : String × List Char) : List Char := p.1.toList ++ ':' :: ' ' :: p.2

theorem metaHeader_eq (md : List (String × MetaVal)) : ∀ (keys : List String) (h : List Char),
    metaHeader md keys = .ok h →
    h = ((metaPairs md keys).map pairLine).flatMap (fun l => l ++ ['\n'])
  | [], h, he => by
    rw [metaHeader] at he; cases he; rfl
  | k :: ks, h, he => by
    rw [metaHeader] at he
    cases hr : metaHeader md ks with
    | error e => rw [hr] at he; cases he
    | ok rest =>
      have ih := metaHeader_eq md ks rest hr
      rw [hr] at he
      simp only [bind, Except.bind] at he
      cases hk : dictGet md k with
      | error e =>
        rw [hk] at he
        have : rest = h := by cases he; rfl
        rw [← this, ih, metaPairs, metaPairs, List.filterMap_cons]
        simp only [hk]
      | ok v =>
        rw [hk] at he
        cases v with
        | dict d => cases he
        | str s =>
          simp only at he
          cases ha : dictGet keyAliases k with
          | error e => rw [ha] at he; cases he
          | ok al =>
            rw [ha] at he
            have : headerLine al s.toList ++ rest = h := by cases he; rfl
            rw [← this, ih, metaPairs, metaPairs, List.filterMap_cons]
            simp only [hk, ha]
            simp [headerLine, pairLine]

variable {F : Type} [PyFloat F] [NumText F] [Printing F]

/-- The extension has this separator. -/
def ExtSep (ext : String) (delim : Char) (rd : Option Char) : Prop :=
  (ext = ".txt" ∧ delim = '\t' ∧ rd = none) ∨ (ext = ".csv" ∧ delim = ',' ∧ rd = some ',')

theorem ExtSep.sep {ext : String} {delim : Char} {rd : Option Char} (h : ExtSep ext delim rd) :
    Sep delim rd := by
  rcases h with ⟨_, h1, h2⟩ | ⟨_, h1, h2⟩
  · exact Or.inl ⟨h1, h2⟩
  · exact Or.inr ⟨h1, h2⟩

theorem ExtSep.format {ext : String} {delim : Char} {rd : Option Char} (h : ExtSep ext delim rd) :
    textFormat ext = some ('#', rd) := by
  rcases h with ⟨rfl, _, rfl⟩ | ⟨rfl, _, rfl⟩
  · rfl
  · rw [textFormat, if_neg (by decide), if_pos rfl]

/-- What a written text file consists of. -/
structure TextParts (w : Writer F) (text : List Char) (delim : Char) : Prop where
  intro ::
  ex : ∃ (d : Dataset F) (ds : List (Dataset F)) (st un dt v : DVal F) (cs cu cd : List Char)
      (m : ℕ) (dtp : DType) (rows : List (List F)) (header : List Char),
    w.datasets = d :: ds ∧
    multiKey d ["SpectrumType", "spectrum_type"] = .ok st ∧ st.text = .ok cs ∧
    multiKey d ["Unit", "unit"] = .ok un ∧ un.text = .ok cu ∧
    multiKey d ["DataType", "type"] = .ok dt ∧ dt.text = .ok cd ∧
    multiKey d ["Data", "data"] = .ok v ∧ strTableToNumeric v.asTable = .ok (.d2 m dtp rows) ∧
    metaHeader w.metaData writtenKeys = .ok header ∧
    text = savetxt delim (header ++ headerLine "SPECTRUMTYPE" cs ++ headerLine "UNIT" cu
      ++ headerLine "DATATYPE" cd) rows

theorem except_bind_ok {α β : Type} {x : Res α} {f : α → Res β} {b : β} (h : (x >>= f) = .ok b) :
    ∃ a, x = .ok a ∧ f a = .ok b := by
  cases x with
  | error e => cases h
  | ok a => exact ⟨a, rfl, h⟩

theorem writeText_parts {w : Writer F} {text : List Char} {delim : Char} {rd : Option Char}
    (he : ExtSep w.ext delim rd) (h : w.writeText = .ok text) : TextParts w text delim := by
  unfold Writer.writeText at h
  obtain ⟨header, h1, h⟩ := except_bind_ok h
  obtain ⟨d, h2, h⟩ := except_bind_ok h
  have hd : ∃ ds, w.datasets = d :: ds := by
    cases hw : w.datasets with
    | nil => rw [hw] at h2; cases h2
    | cons d' ds =>
      rw [hw] at h2
      have : d' = d := by cases h2; rfl
      exact ⟨ds, by rw [this]⟩
  obtain ⟨ds, hd⟩ := hd
  obtain ⟨st, hst, h⟩ := except_bind_ok h
  obtain ⟨cs, hcs, h⟩ := except_bind_ok h
  obtain ⟨un, hun, h⟩ := except_bind_ok h
  obtain ⟨cu, hcu, h⟩ := except_bind_ok h
  obtain ⟨dt, hdt, h⟩ := except_bind_ok h
  obtain ⟨cd, hcd, h⟩ := except_bind_ok h
  obtain ⟨v, hv, h⟩ := except_bind_ok h
  obtain ⟨a, ha, h⟩ := except_bind_ok h
  obtain ⟨dl, hdl, h⟩ := except_bind_ok h
  have hdel : dl = delim := by
    rcases he with ⟨hx, hy, _⟩ | ⟨hx, hy, _⟩
    · rw [delimiterOf, if_pos hx] at hdl
      cases hdl; exact hy.symm
    · rw [delimiterOf, if_neg (by rw [hx]; decide), if_pos hx] at hdl
      cases hdl; exact hy.symm
  subst hdel
  cases a with
  | d1 _ _ => cases h
  | other => cases h
  | d2 m dtp rows =>
    have : savetxt dl (header ++ headerLine "SPECTRUMTYPE" cs
          ++ headerLine "UNIT" cu ++ headerLine "DATATYPE" cd) rows = text := by
      cases h; rfl
    exact ⟨⟨d, ds, st, un, dt, v, cs, cu, cd, m, dtp, rows, header, hd, hst, hcs, hun, hcu, hdt,
      hcd, hv, ha, h1, this.symm⟩⟩

end Disp
