import Verif.Lemmas.Csv
/-!
# What the parser makes of the beginning of a file
-/

namespace Disp

open Spec CsvParser

/-- Fields, each followed by a delimiter. -/
def csvHead (cr : Bool) (l : List (List Char)) : List Char :=
  l.flatMap (fun s => csvField cr s ++ [','])

theorem csvLine_append (cr : Bool) (l : List (List Char)) {m : List (List Char)} (hm : m ≠ []) :
    csvLine cr (l ++ m) = csvHead cr l ++ csvLine cr m := by
  induction l with
  | nil => simp [csvHead]
  | cons s l ih =>
    have : l ++ m ≠ [] := by simp [hm]
    obtain ⟨a, b, hab⟩ := List.exists_cons_of_ne_nil this
    have e : csvLine cr (s :: (l ++ m)) = csvField cr s ++ ',' :: csvLine cr (l ++ m) := by
      rw [hab]; rfl
    rw [List.cons_append, e, ih]
    simp [csvHead]

theorem fold_head {cr : Bool} {l : List (List Char)} (hs : ∀ s ∈ l, CrSafe cr s)
    (fs : List (List Char)) (ls : List (List (List Char))) :
    (csvHead cr l).foldl step ⟨.field, [], fs, ls⟩ = ⟨.field, [], fs ++ l, ls⟩ := by
  induction l generalizing fs with
  | nil => simp [csvHead]
  | cons s l ih =>
    have e : csvHead cr (s :: l) = csvField cr s ++ ',' :: csvHead cr l := by simp [csvHead]
    rw [e, List.foldl_append, List.foldl_cons, (ready_field (hs s (by simp)) fs ls).1.comma,
      ih (fun x hx => hs x (by simp [hx])), List.append_assoc]
    rfl

theorem fold_head_record {cr : Bool} {l : List (List Char)} (hl : l ≠ [])
    (hs : ∀ s ∈ l, CrSafe cr s) (ls : List (List (List Char))) :
    (csvHead cr l).foldl step ⟨.record, [], [], ls⟩ = ⟨.field, [], l, ls⟩ := by
  obtain ⟨s, l, rfl⟩ := List.exists_cons_of_ne_nil hl
  have e : csvHead cr (s :: l) = csvField cr s ++ ',' :: csvHead cr l := by simp [csvHead]
  rw [e, List.foldl_append, List.foldl_cons, (ready_record (hs s (by simp)) ls).comma,
    fold_head (fun x hx => hs x (by simp [hx]))]
  rfl

/-- The beginning of a line. -/
theorem cut_line {cr : Bool} {l : List (List Char)} (hl : l ≠ []) {p : List Char}
    (hp : p <+: csvLine cr l) :
    p = csvLine cr l ∨ ∃ j s w, l[j]? = some s ∧ w <+: csvField cr s ∧
      p = csvHead cr (l.take j) ++ w := by
  induction l generalizing p with
  | nil => exact absurd rfl hl
  | cons s t ih =>
    cases t with
    | nil =>
      have hp' : p <+: csvField cr s ++ ['\n'] := hp
      rcases List.prefix_concat_iff.1 hp' with h | h
      · exact .inl h
      · exact .inr ⟨0, s, p, rfl, h, by simp [csvHead]⟩
    | cons s' t =>
      have e : csvLine cr (s :: s' :: t) = csvField cr s ++ ',' :: csvLine cr (s' :: t) := rfl
      rw [e] at hp ⊢
      rcases List.prefix_or_prefix_of_prefix hp (List.prefix_append (csvField cr s) _) with h | h
      · exact .inr ⟨0, s, p, rfl, h, by simp [csvHead]⟩
      · obtain ⟨q, rfl⟩ := h
        rw [List.prefix_append_right_inj] at hp
        cases q with
        | nil => exact .inr ⟨0, s, csvField cr s, rfl, List.prefix_rfl, by simp [csvHead]⟩
        | cons c q =>
          obtain ⟨rfl, hq⟩ := List.cons_prefix_cons.1 hp
          rcases ih (by simp) hq with h | ⟨j, s'', w, hj, hw, h⟩
          · exact .inl (by rw [h])
          · refine .inr ⟨j + 1, s'', w, by simpa using hj, hw, ?_⟩
            rw [h]
            simp [csvHead]

/-- The beginning of a file: it ends between two lines or inside of a field. -/
theorem cut_lines {cr : Bool} {t : List (List (List Char))} (ht : ∀ l ∈ t, l ≠ []) {p : List Char}
    (hp : p <+: t.flatMap (csvLine cr)) :
    (∃ k, k ≤ t.length ∧ p = (t.take k).flatMap (csvLine cr)) ∨
      ∃ k l j s w, t[k]? = some l ∧ l[j]? = some s ∧ w <+: csvField cr s ∧
        p = (t.take k).flatMap (csvLine cr) ++ (csvHead cr (l.take j) ++ w) := by
  induction t generalizing p with
  | nil => exact .inl ⟨0, by simp, by simpa using hp⟩
  | cons l t ih =>
    rw [List.flatMap_cons] at hp
    rcases List.prefix_or_prefix_of_prefix hp (List.prefix_append (csvLine cr l) _) with h | h
    · rcases cut_line (ht l (by simp)) h with h | ⟨j, s, w, hj, hw, h⟩
      · exact .inl ⟨1, by simp, by simp [h]⟩
      · exact .inr ⟨0, l, j, s, w, rfl, hj, hw, by simp [h]⟩
    · obtain ⟨q, rfl⟩ := h
      rw [List.prefix_append_right_inj] at hp
      rcases ih (fun l hl => ht l (by simp [hl])) hp with
        ⟨k, hk, h⟩ | ⟨k, l', j, s, w, hk, hj, hw, h⟩
      · exact .inl ⟨k + 1, by simpa using hk, by simp [h]⟩
      · exact .inr ⟨k + 1, l', j, s, w, by simpa using hk, hj, hw, by simp [h]⟩

/-- The beginning of a text in quotes. -/
theorem fold_cut_quoted (s : List Char) {w : List Char} (hw : w <+: doubled s) (v : List Char)
    (fs : List (List Char)) (ls : List (List (List Char))) :
    ∃ st s', w.foldl step ⟨.quoted, v, fs, ls⟩ = ⟨st, v ++ s', fs, ls⟩ ∧ s' <+: s ∧
      (st = .quoted ∨ st = .quoteInQuoted) := by
  induction s generalizing v w with
  | nil =>
    have : w = [] := by simpa [doubled] using hw
    subst this
    exact ⟨.quoted, [], by simp, List.prefix_rfl, .inl rfl⟩
  | cons c s ih =>
    have hd : doubled (c :: s) = (if c = '"' then ['"', '"'] else [c]) ++ doubled s := by
      simp [doubled]
    rw [hd] at hw
    cases w with
    | nil => exact ⟨.quoted, [], by simp, List.nil_prefix, .inl rfl⟩
    | cons d w =>
      by_cases hc : c = '"'
      · subst hc
        have hw1 : d :: w <+: '"' :: '"' :: doubled s := by simpa using hw
        obtain ⟨hd1, hw2⟩ := List.cons_prefix_cons.1 hw1
        subst hd1
        clear hw hw1
        cases w with
        | nil => exact ⟨.quoteInQuoted, [], by simp [step], List.nil_prefix, .inr rfl⟩
        | cons d w =>
          obtain ⟨hd2, hw3⟩ := List.cons_prefix_cons.1 hw2
          subst hd2
          obtain ⟨st, s', h1, h2, h3⟩ := ih hw3 (v ++ ['"'])
          refine ⟨st, '"' :: s', ?_, List.cons_prefix_cons.2 ⟨rfl, h2⟩, h3⟩
          rw [List.foldl_cons, List.foldl_cons]
          have : step (step ⟨.quoted, v, fs, ls⟩ '"') '"' = ⟨.quoted, v ++ ['"'], fs, ls⟩ := by
            simp [step, stepQuote, push]
          rw [this, h1, List.append_assoc]
          rfl
      · rw [if_neg hc] at hw
        obtain ⟨rfl, hw'⟩ := List.cons_prefix_cons.1 hw
        obtain ⟨st, s', h1, h2, h3⟩ := ih hw' (v ++ [d])
        refine ⟨st, d :: s', ?_, List.cons_prefix_cons.2 ⟨rfl, h2⟩, h3⟩
        rw [List.foldl_cons]
        have : step ⟨.quoted, v, fs, ls⟩ d = ⟨.quoted, v ++ [d], fs, ls⟩ := by
          simp [step, hc, push]
        rw [this, h1, List.append_assoc]
        rfl

/-- The beginning of a field in quotes, from the beginning of a line or of a field. -/
theorem fold_cut_quotes (s : List Char) {w : List Char}
    (hw : w <+: '"' :: (doubled s ++ ['"'])) (hne : w ≠ []) (st : CsvState)
    (hst : st = .record ∨ st = .field) (fs : List (List Char)) (ls : List (List (List Char))) :
    ∃ st' s', w.foldl step ⟨st, [], fs, ls⟩ = ⟨st', s', fs, ls⟩ ∧ s' <+: s ∧
      (st' = .quoted ∨ st' = .quoteInQuoted) := by
  obtain ⟨c, w, rfl⟩ := List.exists_cons_of_ne_nil hne
  obtain ⟨hc, hw2⟩ := List.cons_prefix_cons.1 hw
  subst hc
  have h1 : step ⟨st, [], fs, ls⟩ '"' = ⟨.quoted, [], fs, ls⟩ := by
    rcases hst with rfl | rfl <;> simp [step, stepRecord, stepField]
  rw [List.foldl_cons, h1]
  rcases List.prefix_concat_iff.1 hw2 with h | h
  · subst h
    refine ⟨.quoteInQuoted, s, ?_, List.prefix_rfl, .inr rfl⟩
    rw [List.foldl_append, fold_quoted]
    simp [step]
  · obtain ⟨st', s', h, h', h''⟩ := fold_cut_quoted s h [] fs ls
    exact ⟨st', s', by simpa using h, h', h''⟩

/-- The beginning of a field, from the beginning of a field. -/
theorem fold_cut_field {cr : Bool} {s : List Char} (hs : CrSafe cr s) {w : List Char}
    (hw : w <+: csvField cr s) (fs : List (List Char)) (ls : List (List (List Char))) :
    ∃ st s', w.foldl step ⟨.field, [], fs, ls⟩ = ⟨st, s', fs, ls⟩ ∧ s' <+: s ∧
      (st = .field ∨ st = .inField ∨ st = .quoted ∨ st = .quoteInQuoted) := by
  by_cases hne : w = []
  · subst hne
    exact ⟨.field, [], rfl, List.nil_prefix, .inl rfl⟩
  unfold csvField at hw
  by_cases hq : needsQuotes cr s = true
  · rw [if_pos hq] at hw
    obtain ⟨st, s', h1, h2, h3⟩ := fold_cut_quotes s hw hne .field (.inr rfl) fs ls
    exact ⟨st, s', h1, h2, .inr (.inr h3)⟩
  · rw [if_neg hq] at hw
    have hp := needsQuotes_false (by simpa using hq) hs
    obtain ⟨c, w, rfl⟩ := List.exists_cons_of_ne_nil hne
    have hsub : ∀ d ∈ c :: w, d ≠ ',' ∧ d ≠ '"' ∧ d ≠ '\n' ∧ d ≠ '\r' :=
      fun d hd => hp d (hw.subset hd)
    obtain ⟨h1, h2, h3, h4⟩ := hsub c (by simp)
    have : step ⟨.field, [], fs, ls⟩ c = ⟨.inField, [c], fs, ls⟩ := by
      simp [step, stepField, h1, h2, h3, h4, push]
    refine ⟨.inField, c :: w, ?_, hw, .inr (.inl rfl)⟩
    rw [List.foldl_cons, this, fold_inField (fun d hd => hsub d (by simp [hd]))]
    rfl

/-- The beginning of a field, from the beginning of a line. -/
theorem fold_cut_record {cr : Bool} {s : List Char} (hs : CrSafe cr s) {w : List Char}
    (hw : w <+: csvField cr s) (ls : List (List (List Char))) :
    ∃ st s', w.foldl step ⟨.record, [], [], ls⟩ = ⟨st, s', [], ls⟩ ∧ s' <+: s ∧
      (st = .record ∨ st = .blank ∨ st = .field ∨ st = .inField ∨ st = .quoted ∨
        st = .quoteInQuoted) := by
  by_cases hne : w = []
  · subst hne
    exact ⟨.record, [], rfl, List.nil_prefix, .inl rfl⟩
  unfold csvField at hw
  by_cases hq : needsQuotes cr s = true
  · rw [if_pos hq] at hw
    obtain ⟨st, s', h1, h2, h3⟩ := fold_cut_quotes s hw hne .record (.inl rfl) [] ls
    exact ⟨st, s', h1, h2, .inr (.inr (.inr (.inr h3)))⟩
  · rw [if_neg hq] at hw
    have hp := needsQuotes_false (by simpa using hq) hs
    have hsub : ∀ d ∈ w, d ≠ ',' ∧ d ≠ '"' ∧ d ≠ '\n' ∧ d ≠ '\r' :=
      fun d hd => hp d (hw.subset hd)
    obtain ⟨c, w, rfl⟩ := List.exists_cons_of_ne_nil hne
    obtain ⟨h1, h2, h3, h4⟩ := hsub c (by simp)
    rw [List.foldl_cons]
    by_cases hb : c = ' ' ∨ c = '\t'
    · have e : step ⟨.record, [], [], ls⟩ c = ⟨.blank, [c], [], ls⟩ := by
        simp [step, stepRecord, h3, h4, hb, push]
      rw [e]
      have hr := fold_blank (fun d hd => hsub d (by simp [hd])) [c] [] ls (s := w)
      generalize w.foldl step ⟨.blank, [c], [], ls⟩ = q at hr
      obtain ⟨st, v, g, l⟩ := q
      obtain ⟨rfl, rfl, rfl, hst⟩ := hr
      refine ⟨st, _, rfl, hw, ?_⟩
      rcases hst with h | h | h | h | ⟨h, -⟩ <;> simp only at h <;> subst h <;> simp
    · have e : step ⟨.record, [], [], ls⟩ c = ⟨.inField, [c], [], ls⟩ := by
        simp [step, stepRecord, stepField, h1, h2, h3, h4, hb, push]
      rw [e, fold_inField (fun d hd => hsub d (by simp [hd]))]
      exact ⟨.inField, _, rfl, hw, by simp⟩

/-- The lines of the beginning of a file: an error, or the complete lines, or these and what is
left of the next one. -/
theorem csvLines_beginning {cr : Bool} {t : List (List (List Char))}
    (ht : ∀ l ∈ t, 2 ≤ l.length ∧ ∀ s ∈ l, CsvSafe cr s) {p : List Char}
    (hp : p <+: t.flatMap (csvLine cr)) :
    csvLines p = .error .value ∨
      (∃ k, k ≤ t.length ∧ csvLines p = .ok (t.take k)) ∨
      ∃ k l j s v, t[k]? = some l ∧ l[j]? = some s ∧ v <+: s ∧
        csvLines p = .ok (t.take k ++ [l.take j ++ [v]]) := by
  have hne : ∀ l ∈ t, l ≠ [] := by
    rintro l hl rfl
    simpa using (ht _ hl).1
  have htake : ∀ k, ∀ l ∈ t.take k, 2 ≤ l.length ∧ ∀ s ∈ l, CsvSafe cr s :=
    fun k l hl => ht l (List.mem_of_mem_take hl)
  rcases cut_lines hne hp with ⟨k, hk, rfl⟩ | ⟨k, l, j, s, w, hk, hj, hw, rfl⟩
  · exact .inr (.inl ⟨k, hk, csvLines_flatMap _ (htake k)⟩)
  have hl : l ∈ t := List.mem_of_getElem? hk
  have hs : CsvSafe cr s := (ht l hl).2 s (List.mem_of_getElem? hj)
  have hsafe : ∀ v, v <+: s → v.takeWhile (· ≠ '\x00') = v := by
    intro v hv
    have hnul : '\x00' ∉ v := fun h => hs.1 (hv.subset h)
    exact takeWhile_safe (cr := true) ⟨hnul, fun _ => .inl rfl⟩
  have hmap : ∀ ls : List (List (List Char)), (∀ l ∈ ls, ∀ s ∈ l, CsvSafe cr s) →
      ls.map (fun l => l.map (fun w => w.takeWhile (· ≠ '\x00'))) = ls := by
    intro ls hls
    rw [List.map_congr_left (g := id), List.map_id]
    intro l hl
    rw [List.map_congr_left (g := id), List.map_id]
    · rfl
    · intro s hs
      exact takeWhile_safe (hls l hl s hs)
  have h1 := fold_lines (t.take k) (fun l hl => ⟨(htake k l hl).1, fun s hs =>
    ((htake k l hl).2 s hs).2⟩) []
  have hfull := hmap (t.take k) (fun l hl => (htake k l hl).2)
  have hline : ∀ v, v <+: s → (t.take k ++ [l.take j ++ [v]]).map
      (fun l => l.map (fun w => w.takeWhile (· ≠ '\x00'))) = t.take k ++ [l.take j ++ [v]] := by
    intro v hv
    rw [List.map_append, hfull, List.map_singleton, List.map_append, List.map_singleton, hsafe v hv]
    have := hmap [l.take j] (by
      intro l' hl'
      rw [List.mem_singleton.1 hl']
      exact fun s hs => (ht l hl).2 s (List.mem_of_mem_take hs))
    rw [List.map_singleton, List.singleton_inj] at this
    rw [this]
  have key : ∀ st v, v <+: s →
      (csvHead cr (l.take j) ++ w).foldl step ⟨.record, [], [], t.take k⟩ =
        ⟨st, v, l.take j, t.take k⟩ →
      (((st = .record ∨ st = .blank) ∧ l.take j = []) ∨ st = .field ∨ st = .inField ∨
        st = .quoted ∨ st = .quoteInQuoted) →
      csvLines ((t.take k).flatMap (csvLine cr) ++ (csvHead cr (l.take j) ++ w)) = .error .value ∨
      (∃ k', k' ≤ t.length ∧
        csvLines ((t.take k).flatMap (csvLine cr) ++ (csvHead cr (l.take j) ++ w)) =
          .ok (t.take k')) ∨
      ∃ k' l' j' s' v', t[k']? = some l' ∧ l'[j']? = some s' ∧ v' <+: s' ∧
        csvLines ((t.take k).flatMap (csvLine cr) ++ (csvHead cr (l.take j) ++ w)) =
          .ok (t.take k' ++ [l'.take j' ++ [v']]) := by
    intro st v hv hfold hst
    have hk' : k ≤ t.length := by
      have := (List.getElem?_eq_some_iff.1 hk).1
      omega
    have e : csvLines ((t.take k).flatMap (csvLine cr) ++ (csvHead cr (l.take j) ++ w)) =
        (finish ⟨st, v, l.take j, t.take k⟩).bind (fun lines => .ok (lines.map
          (fun l => l.map (fun w => w.takeWhile (· ≠ '\x00'))))) := by
      rw [csvLines, List.foldl_append, show CsvParser.start = ⟨.record, [], [], []⟩ from rfl, h1,
        List.nil_append, hfold]
      rfl
    rw [e]
    rcases hst with ⟨rfl | rfl, -⟩ | rfl | rfl | rfl | rfl
    · exact .inr (.inl ⟨k, hk', by simp only [finish, Except.bind, hfull]⟩)
    · exact .inr (.inl ⟨k, hk', by simp only [finish, Except.bind, hfull]⟩)
    · exact .inr (.inr ⟨k, l, j, s, v, hk, hj, hv, by
        simp only [finish, Except.bind, endField, endLine, hline v hv]⟩)
    · exact .inr (.inr ⟨k, l, j, s, v, hk, hj, hv, by
        simp only [finish, Except.bind, endField, endLine, hline v hv]⟩)
    · exact .inl rfl
    · exact .inr (.inr ⟨k, l, j, s, v, hk, hj, hv, by
        simp only [finish, Except.bind, endField, endLine, hline v hv]⟩)
  by_cases hj0 : l.take j = []
  · obtain ⟨st, v, hf, hv, hst⟩ := fold_cut_record hs.2 hw (t.take k)
    refine key st v hv ?_ ?_
    · rw [hj0]
      simpa [csvHead] using hf
    · rcases hst with h | h | h | h | h | h
      · exact .inl ⟨.inl h, hj0⟩
      · exact .inl ⟨.inr h, hj0⟩
      · exact .inr (.inl h)
      · exact .inr (.inr (.inl h))
      · exact .inr (.inr (.inr (.inl h)))
      · exact .inr (.inr (.inr (.inr h)))
  · obtain ⟨st, v, hf, hv, hst⟩ := fold_cut_field hs.2 hw (l.take j) (t.take k)
    refine key st v hv ?_ (.inr hst)
    rw [List.foldl_append, fold_head_record hj0 (fun x hx =>
      ((ht l hl).2 x (List.mem_of_mem_take hx)).2), hf]

end Disp
