import Verif.Model.Interrupted
import Verif.Props.TextMaterials
/-!
# C125: saving that is interrupted
-/

namespace Disp

open Spec

variable {F : Type}

/-! ## Beginnings of texts -/

/-- A beginning of `a ++ b` is one of `a`, or `a` and a beginning of `b`. -/
theorem prefix_append_cases {α : Type} {p a b : List α} (h : p <+: a ++ b) :
    p <+: a ∨ ∃ q, p = a ++ q ∧ q <+: b := by
  obtain ⟨t, ht⟩ := h
  rcases List.append_eq_append_iff.1 ht with ⟨c, h1, h2⟩ | ⟨c, h1, h2⟩
  · exact .inl ⟨c, h1.symm⟩
  · exact .inr ⟨c, h1, ⟨t, h2.symm⟩⟩

theorem mem_beginnings {text s : List Char} : s ∈ beginnings text ↔ s <+: text := by
  rw [beginnings, List.mem_map]
  constructor
  · rintro ⟨i, _, rfl⟩; exact List.take_prefix _ _
  · intro h
    refine ⟨s.length, ?_, (List.prefix_iff_eq_take.1 h).symm⟩
    rw [List.mem_range]
    have := h.length_le
    omega

theorem fieldsOf_nil {delim : Char} {rd : Option Char} (hd : Sep delim rd) : fieldsOf '#' rd [] = [] := by
  rcases hd with ⟨_, rfl⟩ | ⟨_, rfl⟩ <;> simp [fieldsOf, splitSpaces]

/-- A beginning of comment lines has no rows. -/
theorem loadRows_cut_hash [NumText F] {delim : Char} {rd : Option Char} (hd : Sep delim rd) :
    ∀ {bs : List (List Char)}, (∀ b ∈ bs, OneLine b) → ∀ {p : List Char}, p <+: hashLines bs →
      loadRows '#' rd (splitOnChar '\n' p) = (.ok [] : Res (List (List F)))
  | [], _, p, h => by
    have : p = [] := by simpa [hashLines] using h
    subst this
    simp [splitOnChar, loadRows, fieldsOf_nil hd]
  | b :: bs, hb, p, h => by
    rw [hashLines_cons] at h
    have hnl := (hb b (List.mem_cons_self ..)).nl
    have h' : p <+: ('#' :: b) ++ ('\n' :: hashLines bs) := by simpa using h
    rcases prefix_append_cases h' with hp | ⟨q, rfl, hq⟩
    · have hn : '\n' ∉ p := fun hm => by
        rcases List.mem_cons.1 (hp.subset hm) with h0 | h0
        · exact absurd h0 (by decide)
        · exact hnl h0
      rw [splitOnChar_none hn]
      cases p with
      | nil => simp [loadRows, fieldsOf_nil hd]
      | cons c p =>
        have : c = '#' := by
          obtain ⟨t, ht⟩ := hp
          cases ht; rfl
        subst this
        simp only [loadRows, fieldsOf_hash]
    · cases q with
      | nil =>
        rw [List.append_nil, splitOnChar_none (by
          intro hm
          rcases List.mem_cons.1 hm with h0 | h0
          · exact absurd h0 (by decide)
          · exact hnl h0)]
        simp only [loadRows, fieldsOf_hash]
      | cons c q =>
        obtain ⟨rfl, hq2⟩ := List.cons_prefix_cons.1 hq
        rw [splitOnChar_append (by
          intro hm
          rcases List.mem_cons.1 hm with h0 | h0
          · exact absurd h0 (by decide)
          · exact hnl h0), loadRows, fieldsOf_hash]
        exact loadRows_cut_hash hd (fun b' hb' => hb b' (List.mem_cons_of_mem _ hb')) hq2

/-! ## A line that is cut -/

/-- A beginning of words joined by a separator: whole words with their separators, and a
beginning of the next word. -/
theorem joinWith_cut {d : Char} : ∀ {ws : List (List Char)} {l : List Char}, ws ≠ [] →
    l <+: savetxtRows.joinWith d ws → ∃ j v, ∃ hj : j < ws.length, v <+: ws[j] ∧
      l = (ws.take j).flatMap (fun w => w ++ [d]) ++ v
  | [w], l, _, h => ⟨0, l, by simp, by simpa [savetxtRows.joinWith] using h, by simp⟩
  | w :: w' :: ws, l, _, h => by
    have h' : l <+: w ++ (d :: savetxtRows.joinWith d (w' :: ws)) := h
    rcases prefix_append_cases h' with hp | ⟨q, rfl, hq⟩
    · exact ⟨0, l, by simp, hp, by simp⟩
    · cases q with
      | nil => exact ⟨0, w, by simp, by simp, by simp⟩
      | cons c q =>
        obtain ⟨rfl, hq⟩ := List.cons_prefix_cons.1 hq
        obtain ⟨j, v, hj, hv, rfl⟩ := joinWith_cut (by simp) hq
        refine ⟨j + 1, v, by simpa using hj, by simpa using hv, by simp⟩

theorem splitOnChar_cut {d : Char} {v : List Char} (hv : d ∉ v) : ∀ {ws : List (List Char)},
    (∀ w ∈ ws, d ∉ w) →
      splitOnChar d (ws.flatMap (fun w => w ++ [d]) ++ v) = ws ++ [v]
  | [], _ => by simpa using splitOnChar_none hv
  | w :: ws, h => by
    have e : (w :: ws).flatMap (fun w => w ++ [d]) ++ v =
        w ++ d :: (ws.flatMap (fun w => w ++ [d]) ++ v) := by simp
    rw [e, splitOnChar_append (h w (List.mem_cons_self ..)),
      splitOnChar_cut hv (fun x hx => h x (List.mem_cons_of_mem _ hx))]
    rfl

theorem splitSpaces_cut {v : List Char} (hv : Word v ∨ v = []) : ∀ {ws : List (List Char)},
    (∀ w ∈ ws, Word w) →
      splitSpaces (ws.flatMap (fun w => w ++ ['\t']) ++ v) = ws ++ (if v = [] then [] else [v])
  | [], _ => by
    rcases hv with hv | rfl
    · rw [if_neg hv.1]
      have := splitSpaces_word hv (r := []) (by simp)
      simpa [splitSpaces] using this
    · simp [splitSpaces]
  | w :: ws, h => by
    have e : (w :: ws).flatMap (fun w => w ++ ['\t']) ++ v =
        w ++ ('\t' :: (ws.flatMap (fun w => w ++ ['\t']) ++ v)) := by simp
    rw [e, splitSpaces_word (h w (List.mem_cons_self ..)) (by simp; decide)]
    have := splitSpaces_blank (s := ['\t']) (r := ws.flatMap (fun w => w ++ ['\t']) ++ v) (by decide)
    rw [show '\t' :: (ws.flatMap (fun w => w ++ ['\t']) ++ v) =
      ['\t'] ++ (ws.flatMap (fun w => w ++ ['\t']) ++ v) from rfl, this,
      splitSpaces_cut hv (fun x hx => h x (List.mem_cons_of_mem _ hx))]
    rfl

section rows
variable [NumText F] [Printing F] [PrintingLaws F]

/-- The fields of a line that is cut: whole words, and at most one more, which is a beginning of
the next word. -/
theorem fields_cut {delim : Char} {rd : Option Char} (hd : Sep delim rd) {r : List F} (hr : r ≠ [])
    {l : List Char} (h : l <+: savetxtRows.joinWith delim (r.map Printing.fmt8)) :
    ∃ (j : ℕ) (v : List Char) (hj : j < r.length), v <+: Printing.fmt8 r[j] ∧
      (fieldsOf '#' rd l = (r.take j).map Printing.fmt8 ∨
        fieldsOf '#' rd l = (r.take j).map Printing.fmt8 ++ [v]) := by
  have hw : ∀ w ∈ r.map Printing.fmt8, Word w ∧ ',' ∉ w ∧ '#' ∉ w := by
    intro w hw
    obtain ⟨x, _, rfl⟩ := List.mem_map.1 hw
    have := PrintingLaws.fmt8 x
    exact ⟨this.1, this.2.1, this.2.2.1⟩
  have hdel : delim ≠ '#' := by rcases hd with ⟨rfl, _⟩ | ⟨rfl, _⟩ <;> decide
  have hcut : l.takeWhile (· ≠ '#') = l := by
    refine takeWhile_all (fun c hc => ?_)
    simp only [decide_eq_true_eq, ne_eq]
    rintro rfl
    rcases joinWith_mem (h.subset hc) with h | ⟨w, hm, h⟩
    · exact hdel h.symm
    · exact (hw w hm).2.2 h
  obtain ⟨j, v, hj, hv, rfl⟩ := joinWith_cut (by simpa using hr) h
  have hwj := hw _ (List.getElem_mem hj)
  refine ⟨j, v, by simpa using hj, by simpa using hv, ?_⟩
  simp only [fieldsOf, hcut]
  rw [List.map_take]
  generalize hws : (r.map Printing.fmt8).take j = ws
  have hw' : ∀ w ∈ ws, Word w ∧ ',' ∉ w ∧ '#' ∉ w := by
    intro w hm
    rw [← hws] at hm
    exact hw w (List.mem_of_mem_take hm)
  have hvw : Word v ∨ v = [] := by
    by_cases h0 : v = []
    · exact .inr h0
    · exact .inl ⟨h0, fun c hc => hwj.1.2 c (hv.subset hc)⟩
  rcases hd with ⟨rfl, rfl⟩ | ⟨rfl, rfl⟩
  · show splitSpaces _ = _ ∨ splitSpaces _ = _
    rw [splitSpaces_cut hvw (fun w hm => (hw' w hm).1)]
    rcases hvw with h0 | h0
    · right; rw [if_neg h0.1]
    · left; rw [if_pos h0, List.append_nil]
  · simp only
    split
    · rename_i h0
      left
      cases ws with
      | nil => rfl
      | cons w ws => simp at h0
    · right
      rw [splitOnChar_cut (fun hm => hwj.2.1 (hv.subset hm)) (fun w hm => (hw' w hm).2.1),
        List.map_append, List.map_singleton]
      congr 1
      · conv_rhs => rw [← List.map_id ws]
        exact List.map_congr_left (fun w h => strip_word (hw' w h).1)
      · rcases hvw with h0 | rfl
        · rw [strip_word h0]
        · rfl

/-- Numbers that are cut are related to the whole ones. -/
def CutNumbers (R : F → F → Prop) : Prop := ∀ (x v : F) (p : List Char), p <+: Printing.fmt8 x →
  NumText.parseFloat p = .ok v → R (Printing.shown8 x) v

/-- The rows read from a beginning of the rows: whole rows, and at most one more. If that one has
all its columns, it differs from the true row in the last one only. -/
theorem loadRows_cut {R : F → F → Prop} (hR : CutNumbers R) {delim : Char} {rd : Option Char} (hd : Sep delim rd) {n : ℕ} (hn : 0 < n) :
    ∀ {rows : List (List F)}, (∀ r ∈ rows, r.length = n) → ∀ {q : List Char},
      q <+: savetxtRows delim rows → ∀ {left : List (List F)},
      loadRows '#' rd (splitOnChar '\n' q) = .ok left →
      left <+: rows.map (fun r => r.map Printing.shown8) ∨ ∃ pre row x,
        pre ++ [row] <+: rows.map (fun r => r.map Printing.shown8) ∧ left = pre ++ [x] ∧
        (x.length = n → ∃ ini y v, row = ini ++ [y] ∧ x = ini ++ [v] ∧ R y v)
  | [], _, q, hq, left, h => by
    have : q = [] := by simpa [savetxtRows] using hq
    subst this
    have : left = [] := by
      simp only [splitOnChar, loadRows, fieldsOf_nil hd] at h
      cases h; rfl
    subst this
    exact .inl (by simp)
  | r :: rows, hl, q, hq, left, h => by
    have hrl := hl r (List.mem_cons_self ..)
    have hr : r ≠ [] := by rintro rfl; simp at hrl; omega
    have h1 : savetxtRows delim (r :: rows) =
        savetxtRows.joinWith delim (r.map Printing.fmt8) ++ '\n' :: savetxtRows delim rows := by
      simp [savetxtRows]
    rw [h1] at hq
    -- a single line, perhaps cut
    have single : ∀ l, l <+: savetxtRows.joinWith delim (r.map Printing.fmt8) →
        loadRows '#' rd (splitOnChar '\n' l) = .ok left →
        left <+: (r :: rows).map (fun r => r.map Printing.shown8) ∨ ∃ pre row x,
          pre ++ [row] <+: (r :: rows).map (fun r => r.map Printing.shown8) ∧ left = pre ++ [x] ∧
          (x.length = n → ∃ ini y v, row = ini ++ [y] ∧ x = ini ++ [v] ∧ R y v) := by
      intro l hlp hload
      rw [splitOnChar_none (fun hm => (row_clean hd r).1 (hlp.subset hm))] at hload
      obtain ⟨j, v, hj, hvp, hf⟩ := fields_cut hd hr hlp
      unfold loadRows at hload
      cases hff : fieldsOf '#' rd l with
      | nil =>
        rw [hff] at hload
        have : left = [] := by
          simp only [loadRows] at hload
          cases hload; rfl
        subst this
        exact .inl (by simp)
      | cons f fs =>
        rw [hff] at hload
        simp only [loadRows] at hload
        obtain ⟨x, hx, hload⟩ := except_bind_ok hload
        have el : left = [x] := by cases hload; rfl
        subst el
        refine .inr ⟨[], r.map Printing.shown8, x, by simp, rfl, fun hxn => ?_⟩
        rw [← hff] at hx
        rcases hf with hf | hf
        · rw [hf, fmt8_reads] at hx
          have : x = (r.take j).map Printing.shown8 := by cases hx; rfl
          rw [this] at hxn
          simp at hxn; omega
        · rw [hf, List.mapM_append, fmt8_reads] at hx
          obtain ⟨a, ha, hx⟩ := except_bind_ok hx
          obtain ⟨b, hb, hx⟩ := except_bind_ok hx
          have ea : a = (r.take j).map Printing.shown8 := by cases ha; rfl
          have ex : x = a ++ b := by cases hx; rfl
          rw [List.mapM_cons] at hb
          obtain ⟨y, hy, hb⟩ := except_bind_ok hb
          obtain ⟨z, hz, hb⟩ := except_bind_ok hb
          have ez : z = [] := by
            simp only [List.mapM_nil] at hz
            cases hz; rfl
          have eb : b = y :: z := by cases hb; rfl
          subst ex ea eb ez
          have hj' : j = r.length - 1 := by
            simp at hxn; omega
          refine ⟨(r.take j).map Printing.shown8, Printing.shown8 r[j], y, ?_, rfl, hR _ _ _ hvp hy⟩
          rw [← List.map_singleton (f := Printing.shown8), ← List.map_append, List.take_concat_get' r j hj,
            List.take_of_length_le (by omega)]
    rcases prefix_append_cases hq with hp | ⟨q', rfl, hq'⟩
    · exact single q hp h
    · cases q' with
      | nil =>
        rw [List.append_nil] at h
        exact single _ (by simp) h
      | cons c q' =>
        obtain ⟨rfl, hq2⟩ := List.cons_prefix_cons.1 hq'
        rw [splitOnChar_append (row_clean hd r).1, loadRows, fieldsOf_row hd] at h
        have h2 := fmt8_reads r
        have : ∃ rest, loadRows '#' rd (splitOnChar '\n' q') = .ok rest ∧
            left = r.map Printing.shown8 :: rest := by
          cases r with
          | nil => exact absurd rfl hr
          | cons x r =>
            rw [List.map_cons] at h2 h
            simp only at h
            rw [h2] at h
            obtain ⟨y, hy, h⟩ := except_bind_ok h
            obtain ⟨rest, hrest, h⟩ := except_bind_ok h
            refine ⟨rest, hrest, ?_⟩
            cases hy; cases h; rfl
        obtain ⟨rest, hrest, rfl⟩ := this
        rcases loadRows_cut hR hd hn (fun p hp => hl p (List.mem_cons_of_mem _ hp)) hq2 hrest with
          h3 | ⟨pre, row, x, h3, rfl, h4⟩
        · left
          rw [List.map_cons]
          exact List.cons_prefix_cons.2 ⟨rfl, h3⟩
        · refine .inr ⟨r.map Printing.shown8 :: pre, row, x, ?_, rfl, h4⟩
          rw [List.map_cons, List.cons_append]
          exact List.cons_prefix_cons.2 ⟨rfl, h3⟩

/-- A table of two axes from `np.loadtxt`. -/
theorem squeeze_d2 {rows : List (List F)} {c : ℕ} {dt : DType} {left : List (List F)}
    (h : squeezeRows rows = .ok (.d2 c dt left)) :
    rows = left ∧ dt = .float ∧ 2 ≤ rows.length ∧ ∀ r ∈ rows, r.length = c := by
  match rows, h with
  | [], h => cases h
  | [[]], h => cases h
  | [[_]], h => cases h
  | [_ :: _ :: _], h => cases h
  | r :: q :: rs, h =>
    rw [squeezeRows] at h
    · split at h
      · rename_i hall
        split at h
        · cases h
        · cases h
          refine ⟨rfl, rfl, by simp, fun p hp => ?_⟩
          rw [List.all_eq_true] at hall
          rcases List.mem_cons.1 hp with rfl | hp
          · rfl
          · simpa using hall p hp
      · cases h
    · simp
    · simp

/-- What is left of a table: its first rows, of which the last one may end with another
number. -/
def Spec.CutOff (R : F → F → Prop) (full left : List (List F)) : Prop :=
  left <+: full ∨ ∃ pre row x v, pre ++ [row ++ [x]] <+: full ∧ left = pre ++ [row ++ [v]] ∧ R x v

/-- The table in a beginning of a text file. -/
theorem loadtxt_cut {R : F → F → Prop} (hR : CutNumbers R) {delim : Char} {rd : Option Char} (hd : Sep delim rd) {bs : List (List Char)}
    (hb : ∀ b ∈ bs, OneLine b) {n : ℕ} (hn : 0 < n) {rows : List (List F)}
    (hl : ∀ r ∈ rows, r.length = n) {p : List Char}
    (hp : p <+: hashLines bs ++ savetxtRows delim rows) {c : ℕ} {dt : DType} {left : List (List F)}
    (h : loadtxt '#' rd p = .ok (.d2 c dt left)) :
    c = n ∧ dt = .float ∧ CutOff R (rows.map (fun r => r.map Printing.shown8)) left ∧
      ∃ q, p = hashLines bs ++ q ∧ q <+: savetxtRows delim rows := by
  have hcr : '\r' ∉ p := fun hm => by
    rcases List.mem_append.1 (hp.subset hm) with hm | hm
    · exact hashLines_cr hb hm
    · exact savetxtRows_cr hd rows hm
  rw [loadtxt, universal_id hcr] at h
  obtain ⟨L, hL, h⟩ := except_bind_ok h
  obtain ⟨rfl, hdt, h2, hc⟩ := squeeze_d2 h
  rcases prefix_append_cases hp with hp | ⟨q, rfl, hq⟩
  · rw [loadRows_cut_hash hd hb hp] at hL
    cases hL
    simp at h2
  · rw [splitOnChar_hash hb, loadRows_hash] at hL
    have hw : ∀ r ∈ rows.map (fun r => r.map Printing.shown8), r.length = n := by
      intro r hr
      obtain ⟨x, hx, rfl⟩ := List.mem_map.1 hr
      rw [List.length_map]; exact hl x hx
    rcases loadRows_cut hR hd hn hl hq hL with h3 | ⟨pre, row, x, h3, rfl, h4⟩
    · refine ⟨?_, hdt, .inl h3, q, rfl, hq⟩
      cases L with
      | nil => simp at h2
      | cons r L =>
        rw [← hc r (List.mem_cons_self ..)]
        exact hw r (h3.subset (List.mem_cons_self ..))
    · have hcn : c = n := by
        cases pre with
        | nil => simp at h2
        | cons r pre =>
          rw [← hc r (by simp)]
          exact hw r (h3.subset (by simp))
      obtain ⟨ini, y, v, rfl, rfl, hv⟩ := h4 (by rw [← hcn]; exact hc x (by simp))
      exact ⟨hcn, hdt, .inr ⟨pre, ini, y, v, h3, rfl, hv⟩, q, rfl, hq⟩

end rows

/-! ## The file on the disk -/

section files
variable [PyFloat F] [SciPy F] [NumText F] [Printing F] [YamlIO F] [PrintingLaws F]

/-- The file at an interruption: the previous one, or a beginning of comment lines and rows. -/
theorem states_text {w : Writer F} {ic rii : Bool} {c : String} {delim : Char} {rd : Option Char}
    (he : ExtSep w.ext delim rd)
    (hc : dictGet w.metaData "MetaComment" = .ok (.str c)) (hcc : PlainComment c.toList)
    {d : Dataset F} {ds : List (Dataset F)} (hds : w.datasets = d :: ds) {st un dt : String}
    (h1 : dictGet d "SpectrumType" = .ok (.str st)) (h2 : dictGet d "Unit" = .ok (.str un))
    (h3 : dictGet d "DataType" = .ok (.str dt))
    (hm : CleanMeta w.metaData) (c1 : Clean st.toList) (c2 : Clean un.toList)
    (c3 : Clean dt.toList) {old s : List Char} (hs : s ∈ w.writeStates ic rii old) :
    s = old ∨ ∃ (v : DVal F) (m : ℕ) (dtp : DType) (rows : List (List F)) (cb : List (List Char)),
      multiKey d ["Data", "data"] = .ok v ∧ strTableToNumeric v.asTable = .ok (.d2 m dtp rows) ∧
      (∀ b ∈ cb, OneLine b) ∧ s <+: hashLines (cb ++
        headerBodies (w.metaData.filter (fun p => p.1 ≠ "MetaComment")) st.toList un.toList
          dt.toList) ++ savetxtRows delim rows := by
  have hpop : dictPop w.metaData "MetaComment" =
      .ok (.str c, w.metaData.filter (fun p => p.1 ≠ "MetaComment")) := by
    rw [dictPop, hc]; rfl
  rw [Writer.writeStates, hpop] at hs
  simp only [he.format] at hs
  set w1 : Writer F := { w with metaData := w.metaData.filter (fun p => p.1 ≠ "MetaComment") }
    with hw1
  cases ht : w1.writeText with
  | error e =>
    rw [ht] at hs
    exact .inl (by simpa using hs)
  | ok t =>
    rw [ht] at hs
    obtain ⟨d', ds', st', un', dt', v, cs, cu, cd, m, dtp, rows, header, q1, q2, q3, q4, q5, q6, q7,
      q8, q9, q10, q11⟩ := (writeText_parts (w := w1) he ht).ex
    have ed : d' = d := by
      have : d' :: ds' = d :: ds := q1.symm.trans hds
      cases this; rfl
    subst ed
    have mk : ∀ {a b : String} {s : String} {x : DVal F}, dictGet d' a = .ok (.str s) →
        multiKey d' [a, b] = .ok x → x = .str s := by
      intro a b s x ha hx
      rw [multiKey_ok ha] at hx
      cases hx; rfl
    have f1 : cs = st.toList := by rw [mk h1 q2] at q3; cases q3; rfl
    have f2 : cu = un.toList := by rw [mk h2 q4] at q5; cases q5; rfl
    have f3 : cd = dt.toList := by rw [mk h3 q6] at q7; cases q7; rfl
    have hm' : CleanMeta w1.metaData := by
      intro k hk s hs
      refine hm k hk s ?_
      rw [← hs]
      refine (dictGet_filter _ ?_).symm
      rintro rfl
      exact absurd hk (by decide)
    rw [f1, f2, f3, savetxt_eq hm' c1 c2 c3 q10] at q11
    have hcr : '\r' ∉ t := by
      rw [q11]
      intro hcr
      rcases List.mem_append.1 hcr with hcr | hcr
      · exact hashLines_cr (headerBodies_one hm' c1 c2 c3) hcr
      · exact savetxtRows_cr he.sep rows hcr
    rcases List.mem_cons.1 hs with h0 | hs
    · exact .inl h0
    · right
      rw [textStates] at hs
      rcases List.mem_append.1 hs with hs | hs
      · exact ⟨v, m, dtp, rows, [], q8, q9, by simp, by
          rw [List.nil_append, ← q11]; exact mem_beginnings.1 hs⟩
      · split at hs
        · simp at hs
        · rename_i hcn
          have hne : c.toList ≠ [] := by
            intro h0
            exact hcn (by rw [← String.ofList_toList (s := c), h0])
          refine ⟨v, m, dtp, rows, commentBodies c.toList, q8, q9, commentBodies_one hcc, ?_⟩
          rw [hashLines_append, List.append_assoc, ← q11]
          have := mem_beginnings.1 hs
          rw [prependText, commentBlock_eq, universal_id hcr] at this
          rwa [commentBodies, if_neg hne]

/-- What a `Reader` gets from a file of comment lines and a beginning of rows. -/
theorem read_cut {ext : String} {delim : Char} {rd : Option Char} (he : ExtSep ext delim rd)
    {bs : List (List Char)} (hb : ∀ b ∈ bs, OneLine b) {rows : List (List F)}
    (hr : ∀ r ∈ rows, r ≠ []) {q : List Char} (hq : q <+: savetxtRows delim rows) {a : NDArr F}
    (ha : loadtxt '#' rd (hashLines bs ++ q) = .ok a) (r : Reader F) (o : KeyOrder) :
    r.readFile o ext (hashLines bs ++ q) =
      r.textResult (bs.foldl (textStep o) (r.textStart o a)) := by
  rw [Reader.readFile, he.format]
  simp only [Reader.readText]
  rw [ha]
  simp only
  rw [readComment_hash hb ?_]
  intro c hc
  cases q with
  | nil => simp at hc
  | cons x q =>
    obtain ⟨t, ht⟩ := hq
    refine savetxtRows_head (delim := delim) rows hr c ?_
    rw [← ht]
    simpa using hc

omit [PyFloat F] [SciPy F] [NumText F] [Printing F] [YamlIO F] [PrintingLaws F] in
theorem role_dataset {o : KeyOrder} {l : List Char} {k : String} {arg : List Char}
    (h : lineRole o l = .dataset k arg) : k ∈ o.dataset := by
  unfold lineRole at h
  split at h
  · cases h
  · cases h
  · dsimp only at h
    split at h
    · cases h
    · split at h
      · rename_i key hk
        have e : key = k := by cases h; rfl
        subst e
        exact List.mem_of_find?_eq_some hk
      · cases h

omit [PyFloat F] [SciPy F] [NumText F] [Printing F] [YamlIO F] [PrintingLaws F] in
theorem infer_data {d d' : Dataset F} (h : inferType d = .ok d') :
    dictGet d' "Data" = dictGet d "Data" := by
  have key : ∀ x, dictGet (dictSet d "DataType" x) "Data" = dictGet d "Data" := by
    intro x; rw [dictGet_set, if_neg (by decide)]
  unfold inferType at h
  repeat' split at h
  all_goals first
    | cases h; done
    | (cases h; first | rfl | exact key _)

/-- The dataset that a `Reader` gets from a text file holds the array of `np.loadtxt`. -/
theorem read_array {ext : String} {delim : Char} {rd : Option Char} (he : ExtSep ext delim rd)
    {o : KeyOrder} (ho : o.Valid) {s : List Char} {fd : FileDict F} {r' : Reader F}
    (h : (Reader.fresh o : Reader F).readFile o ext s = (.ok fd, r')) :
    ∃ d a, loadtxt '#' rd s = .ok a ∧ fd.datasets = [d] ∧ dictGet d "Data" = .ok (.arr a) := by
  rw [Reader.readFile, he.format] at h
  simp only [Reader.readText] at h
  cases ha : (loadtxt '#' rd s : Res (NDArr F)) with
  | error e => rw [ha] at h; cases h
  | ok a =>
    rw [ha] at h
    simp only at h
    have hdata : dictGet ((readComment s).foldl (textStep o)
        ((Reader.fresh o : Reader F).textStart o a)).dataset "Data" = .ok (.arr a) := by
      rw [fold_data_keep _ _ ?_]
      · show dictGet (dictSet (defaultDataset o) "Data" (.arr a)) "Data" = _
        rw [dictGet_set, if_pos rfl]
      · intro l _ arg hrole
        have := role_dataset hrole
        rw [ho.2.mem_iff] at this
        exact absurd this (by decide)
    unfold Reader.textResult at h
    dsimp only at h
    split at h
    · cases h
    · rename_i d hd
      cases h
      exact ⟨d, a, rfl, rfl, (infer_data hd).trans hdata⟩

/-- C125 for text files with a table: if writing is interrupted, the previous file is there, or
whatever table can be read consists of the first rows of the new one, where the last number may
have been cut, with the spectrum type, unit and data type of the new one. (`C125_numbers_partial`
says more about the number that is cut.) Missing: that nothing
can be read unless the new file is complete, which is false. -/
theorem C125_left_partial {R : F → F → Prop} (hR : CutNumbers R) {m : Material F} (hx : CleanTexts m) {ext : String} (he : IsText ext)
    {w w' : Writer F} (hn : Writer.new ext m = .ok w) {ic rii : Bool} {text : List Char}
    (hw : w.writeFile ic rii = (.ok text, w')) {o : KeyOrder} (ho : o.Valid)
    {fd0 : FileDict F} {r0 : Reader F} {d0 : Dataset F} {n : ℕ} {full : List (List F)}
    (hfull : (Reader.fresh o : Reader F).readFile o ext text = (.ok fd0, r0))
    (hfd : fd0.datasets = [d0]) (hd0 : dictGet d0 "Data" = .ok (.arr (.d2 n .float full)))
    {old s : List Char} (hs : s ∈ w.writeStates ic rii old) :
    s = old ∨ ∀ fd r', (Reader.fresh o : Reader F).readFile o ext s = (.ok fd, r') →
      ∃ d a, fd.datasets = [d] ∧ dictGet d "Data" = .ok (.arr a) ∧
        ∀ c dt left, a = .d2 c dt left → c = n ∧ dt = .float ∧ CutOff R full left ∧
          ∀ k ∈ ["SpectrumType", "Unit", "DataType"], dictGet d k = dictGet d0 k := by
  obtain ⟨md, rd, hmd, hrd, gm, cm, pc, c1, c2⟩ := hx.ex
  obtain ⟨c, hcc⟩ := gm.comment
  obtain ⟨delim, rsep, hes⟩ := ext_sep he
  obtain ⟨d1, ds1, t, sx, n', rows, a, fd', d, r2, p1, p2, p3, p4, p5, p6, p7, p8, p9, p10, p11, p12,
    p13, p14, p15, p16⟩ := text_cycle hes hn hmd hrd hcc (pc _ hcc) cm c1 c2 hw ho
  have e1 : fd' = fd0 := by rw [p9] at hfull; cases hfull; rfl
  subst e1
  have e2 : d = d0 := by rw [p10] at hfd; cases hfd; rfl
  subst e2
  have e3 : a = .d2 n .float full := by rw [p11] at hd0; cases hd0; rfl
  subst e3
  obtain ⟨e4, -, -, hwid⟩ := squeeze_d2 p8
  have e5 : n' = n := by
    cases rows with
    | nil => exact absurd rfl p6
    | cons r rows =>
      have h1 := hwid (r.map Printing.shown8) (by simp)
      have h2 := p7 r (by simp)
      rw [List.length_map] at h1
      omega
  subst e5
  obtain ⟨rd', md', d1', ds1', r1, r2', r3, r4, r5, r6, r7, r8⟩ := first_dataset hn
  have e1 : rd' = rd := by rw [hrd] at r1; cases r1; rfl
  have e2 : md' = md := by rw [hmd] at r2'; cases r2'; rfl
  have e3 : d1' = d1 := by rw [p1] at r3; cases r3; rfl
  subst e1 e2 e3
  have hget : ∀ k, k ≠ "Alias" → dictGet w.metaData k = dictGet md' k := by
    intro k hk; rw [r5]; exact dictGet_filter _ hk
  have hmw : CleanMeta w.metaData := by
    intro k hk s hs
    refine cm k hk s ?_
    rw [← hs]
    refine (hget k ?_).symm
    rintro rfl; exact absurd hk (by decide)
  obtain ⟨-, t', ht', hdt'⟩ := r8 _ p3
  have e6 : t' = t := by rw [p2] at hdt'; cases hdt'; rfl
  subst e6
  have hclean : Clean t'.toList := by
    have : ∀ t ∈ tableTypes, (∀ c ∈ t.toList, isLineEnd c = false) ∧
        ∀ c ∈ t.toList.head?, pySpace c = false := by decide
    exact this t' ht'
  have htne : t' ≠ "" := by
    have : ∀ t ∈ tableTypes, t ≠ "" := by decide
    exact this t' ht'
  rcases states_text (w := w) (by rw [r4]; exact hes) ((hget _ (by decide)).trans hcc) (pc _ hcc) r3
    r6 r7 p2 hmw c1 c2 hclean hs with h0 | ⟨v, k, dtp, rows', cb, q1, q2, q3, q4⟩
  · exact .inl h0
  · right
    have ev : v = .str sx := by rw [p3] at q1; cases q1; rfl
    subst ev
    have e7 : rows' = rows := by
      have : (.ok (.d2 n' .float rows) : Res (NDArr F)) = .ok (.d2 k dtp rows') := p4.symm.trans q2
      cases this; rfl
    subst e7
    intro fd r' hread
    obtain ⟨dl, a, ha, hds, hdat⟩ := read_array hes ho hread
    refine ⟨dl, a, hds, hdat, ?_⟩
    rintro c0 dt0 left rfl
    set md1 := w.metaData.filter (fun p => p.1 ≠ "MetaComment") with hmd1
    have hm1 : CleanMeta md1 := by
      intro k hk x hx
      refine hmw k hk x ?_
      rw [← hx, hmd1]
      refine (dictGet_filter _ ?_).symm
      rintro rfl; exact absurd hk (by decide)
    have hbod : ∀ b ∈ cb ++ headerBodies md1 rd'.stype.toList rd'.unit.toList t'.toList,
        OneLine b := by
      intro b hb
      rcases List.mem_append.1 hb with hb | hb
      · exact q3 b hb
      · exact headerBodies_one hm1 c1 c2 hclean b hb
    obtain ⟨g1, g2, g3, q, g4, g5⟩ := loadtxt_cut hR hes.sep hbod p5 p7 q4 ha
    have hne' : ∀ r ∈ rows', r ≠ [] := by
      rintro r hr rfl
      have := p7 [] hr
      simp at this; omega
    rw [e4] at g3
    refine ⟨g1, g2, g3, ?_⟩
    rw [g4] at ha hread
    rw [read_cut hes hbod hne' g5 ha] at hread
    obtain ⟨-, k2, k3, k4, -, -⟩ := cycle_fields ho hm1 c1 c2 hclean cb
      ((Reader.fresh o : Reader F).textStart o (.d2 c0 dt0 left))
    generalize List.foldl (textStep o) _ _ = S at hread k2 k3 k4
    have hinf : inferType S.dataset = .ok S.dataset := by
      rw [inferType, k4]
      simp only [if_neg htne]
    rw [Reader.textResult, hinf] at hread
    have ed : dl = S.dataset := by
      have : fd.datasets = S.dataset :: [] := by cases hread; rfl
      rw [hds] at this
      cases this; rfl
    subst ed
    intro key hk
    simp only [List.mem_cons, List.not_mem_nil, or_false] at hk
    rcases hk with rfl | rfl | rfl
    · rw [k2, p12]
    · rw [k3, p13]
    · rw [k4, p14]

end files

end Disp
