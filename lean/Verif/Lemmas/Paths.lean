import Verif.Py.Paths
import Verif.Lemmas.Text
import Mathlib.Data.List.Induction
/-!
# Paths: joining with a normalised path
-/

namespace Disp

theorem splitOnChar_concat (d : Char) (a b : List Char) :
    splitOnChar d (a ++ d :: b) = splitOnChar d a ++ splitOnChar d b := by
  induction a with
  | nil => simp [splitOnChar]
  | cons c cs ih =>
    rw [List.cons_append, splitOnChar, splitOnChar]
    by_cases h : c = d
    · rw [if_pos h, if_pos h, ih]; rfl
    · rw [if_neg h, if_neg h, ih]
      cases hs : splitOnChar d cs with
      | nil => exact absurd hs (splitOnChar_ne_nil _ _)
      | cons w ws => rfl

theorem splitOnChar_piece {d : Char} {l w : List Char} (hw : w ∈ splitOnChar d l) :
    d ∉ w ∧ ∀ c ∈ w, c ∈ l := by
  induction l generalizing w with
  | nil =>
    simp only [splitOnChar, List.mem_singleton] at hw
    subst hw; simp
  | cons c cs ih =>
    rw [splitOnChar] at hw
    by_cases h : c = d
    · rw [if_pos h] at hw
      rcases List.mem_cons.1 hw with rfl | hw
      · simp
      · exact ⟨(ih hw).1, fun x hx => List.mem_cons_of_mem _ ((ih hw).2 x hx)⟩
    · rw [if_neg h] at hw
      cases hs : splitOnChar d cs with
      | nil => exact absurd hs (splitOnChar_ne_nil _ _)
      | cons v vs =>
        rw [hs] at hw
        rcases List.mem_cons.1 hw with rfl | hw
        · have := ih (w := v) (by rw [hs]; exact List.mem_cons_self ..)
          refine ⟨?_, ?_⟩
          · intro hm
            rcases List.mem_cons.1 hm with e | hm
            · exact h e.symm
            · exact this.1 hm
          · intro x hx
            rcases List.mem_cons.1 hx with rfl | hx
            · exact List.mem_cons_self ..
            · exact List.mem_cons_of_mem _ (this.2 x hx)
        · have := ih (w := w) (by rw [hs]; exact List.mem_cons_of_mem _ hw)
          exact ⟨this.1, fun x hx => List.mem_cons_of_mem _ (this.2 x hx)⟩

theorem splitOnChar_joinSlash : ∀ {ws : List (List Char)}, ws ≠ [] → (∀ w ∈ ws, '/' ∉ w) →
    splitOnChar '/' (joinSlash ws) = ws
  | [], h, _ => absurd rfl h
  | [w], _, h => splitOnChar_none (h w (by simp))
  | w :: v :: ws, _, h => by
    rw [joinSlash, splitOnChar_append (h w (by simp)),
      splitOnChar_joinSlash (by simp) (fun u hu => h u (List.mem_cons_of_mem _ hu))]
    simp

theorem normStep_skip {root : Bool} {k : List (List Char)} {c : List Char} (h : c = [] ∨ c = ['.']) :
    normStep root k c = k := by
  unfold normStep; rw [if_pos h]

theorem normStep_push {root : Bool} {k : List (List Char)} {c : List Char}
    (h : ¬ (c = [] ∨ c = ['.'])) (h2 : c ≠ ['.', '.']) : normStep root k c = c :: k := by
  unfold normStep; rw [if_neg h, if_pos h2]

theorem normStep_pop {root : Bool} {k : List (List Char)} {t : List Char} (h : t ≠ ['.', '.']) :
    normStep root (t :: k) ['.', '.'] = k := by
  unfold normStep
  rw [if_neg (by simp), if_neg (by simp)]
  exact if_neg h

/-- The components that a normalised path consists of. -/
theorem normStep_mem {root : Bool} {kept : List (List Char)} {comp w : List Char}
    (h : w ∈ normStep root kept comp) : w ∈ kept ∨ w = comp ∧ comp ≠ [] ∧ comp ≠ ['.'] := by
  unfold normStep at h
  split at h
  · exact .inl h
  · rename_i h1
    push Not at h1
    split at h
    · rcases List.mem_cons.1 h with rfl | h
      · exact .inr ⟨rfl, h1⟩
      · exact .inl h
    · split at h
      · split at h
        · cases h
        · exact .inr ⟨List.mem_singleton.1 h, h1⟩
      · split at h
        · rcases List.mem_cons.1 h with rfl | h
          · exact .inr ⟨rfl, h1⟩
          · exact .inl h
        · exact .inl (List.mem_cons_of_mem _ h)

theorem normFold_mem {root : Bool} (comps kept : List (List Char)) {w : List Char}
    (h : w ∈ comps.foldl (normStep root) kept) :
    w ∈ kept ∨ w ∈ comps ∧ w ≠ [] ∧ w ≠ ['.'] := by
  induction comps generalizing kept with
  | nil => exact .inl h
  | cons c cs ih =>
    rcases ih _ h with h | ⟨h, h'⟩
    · rcases normStep_mem h with h | ⟨rfl, h⟩
      · exact .inl h
      · exact .inr ⟨List.mem_cons_self .., h⟩
    · exact .inr ⟨List.mem_cons_of_mem _ h, h'⟩

/-- The components of a normalised path stand for the path, whatever is before it. -/
theorem normFold_norm (root : Bool) (k comps : List (List Char)) :
    (comps.foldl (normStep false) []).reverse.foldl (normStep root) k =
      comps.foldl (normStep root) k := by
  induction comps using List.reverseRecOn with
  | nil => rfl
  | append_singleton cs c ih =>
    have hmem : ∀ w ∈ cs.foldl (normStep false) [], w ≠ [] ∧ w ≠ ['.'] := by
      intro w hw
      rcases normFold_mem cs [] hw with h | h
      · cases h
      · exact h.2
    rw [List.foldl_append, List.foldl_append, List.foldl_cons, List.foldl_nil, List.foldl_cons,
      List.foldl_nil, ← ih]
    generalize cs.foldl (normStep false) [] = kept at hmem ⊢
    by_cases h1 : c = [] ∨ c = ['.']
    · rw [normStep_skip h1, normStep_skip h1]
    · by_cases h2 : c ≠ ['.', '.']
      · rw [normStep_push h1 h2, List.reverse_cons, List.foldl_append]
        rfl
      · push Not at h2
        subst h2
        cases kept with
        | nil => rfl
        | cons t ks =>
          by_cases ht : t = ['.', '.']
          · subst ht
            have : normStep false (['.', '.'] :: ks) ['.', '.'] = ['.', '.'] :: ['.', '.'] :: ks := rfl
            rw [this, List.reverse_cons, List.foldl_append]
            rfl
          · have e : normStep false (t :: ks) ['.', '.'] = ks := normStep_pop ht
            obtain ⟨n1, n2⟩ := hmem t (List.mem_cons_self ..)
            rw [e, List.reverse_cons, List.foldl_append, List.foldl_cons, List.foldl_nil]
            generalize ks.reverse.foldl (normStep root) k = q
            rw [normStep_push (by simp [n1, n2]) ht, normStep_pop ht]

/-- Joining appends the components. -/
theorem normFold_join (root : Bool) (k : List (List Char)) (a b : List Char)
    (hb : b.head? ≠ some '/') :
    (splitOnChar '/' (joinChars a b)).foldl (normStep root) k =
      (splitOnChar '/' b).foldl (normStep root) ((splitOnChar '/' a).foldl (normStep root) k) := by
  have hempty : ∀ q : List (List Char), normStep root q [] = q := by
    intro q; unfold normStep; rw [if_pos (.inl rfl)]
  unfold joinChars
  rw [if_neg hb]
  by_cases ha : a = [] ∨ a.getLast? = some '/'
  · rw [if_pos ha]
    rcases ha with rfl | ha
    · rw [List.nil_append, splitOnChar, List.foldl_cons, List.foldl_nil, hempty]
    · obtain ⟨a', rfl⟩ := List.getLast?_eq_some_iff.1 ha
      rw [List.append_assoc, List.singleton_append, splitOnChar_concat,
        show a' ++ ['/'] = a' ++ '/' :: [] from rfl, splitOnChar_concat, List.foldl_append,
        List.foldl_append, show splitOnChar '/' [] = [[]] from rfl, List.foldl_cons, List.foldl_nil,
        hempty]
  · rw [if_neg ha, splitOnChar_concat, List.foldl_append]

theorem rootOf_cons_ne {c : Char} (h : c ≠ '/') (l : List Char) : rootOf (c :: l) = [] := by
  unfold rootOf
  split
  · rename_i e; exact absurd (List.cons.inj e).1 h
  · rename_i e; exact absurd (List.cons.inj e).1 h
  · rename_i e; exact absurd (List.cons.inj e).1 h
  · rfl

theorem rootOf_rel {l : List Char} (h : l.head? ≠ some '/') : rootOf l = [] := by
  cases l with
  | nil => rfl
  | cons c cs => exact rootOf_cons_ne (by simpa using h) cs

theorem rootOf_one {c : Char} (h : c ≠ '/') (l : List Char) : rootOf ('/' :: c :: l) = ['/'] := by
  unfold rootOf
  split
  · rename_i e; exact absurd (List.cons.inj (List.cons.inj e).2).1 h
  · rename_i e; exact absurd (List.cons.inj (List.cons.inj e).2).1 h
  · rfl
  · rename_i e; exact absurd rfl (e _)

theorem rootOf_two {c : Char} (h : c ≠ '/') (l : List Char) :
    rootOf ('/' :: '/' :: c :: l) = ['/', '/'] := by
  unfold rootOf
  split
  · rename_i e; exact absurd (List.cons.inj (List.cons.inj (List.cons.inj e).2).2).1 h
  · rfl
  · rename_i e; rename_i h2 h3; exact absurd (List.cons.inj e).2.symm (h3 _)
  · rename_i e; exact absurd rfl (e _)

theorem rootOf_join {a b : List Char} (hb : b.head? ≠ some '/') :
    rootOf (joinChars a b) = rootOf a := by
  have key : ∀ c : Char, ∀ l : List Char, (c :: l) ≠ ['/'] → (c :: l) ≠ ['/', '/'] → ∀ x,
      rootOf ((c :: l) ++ x) = rootOf (c :: l) := by
    intro c l h1 h2 x
    by_cases hc : c = '/'
    · subst hc
      cases l with
      | nil => exact absurd rfl h1
      | cons c' l' =>
        by_cases hc' : c' = '/'
        · subst hc'
          cases l' with
          | nil => exact absurd rfl h2
          | cons c'' l'' =>
            by_cases hc'' : c'' = '/'
            · subst hc''; rfl
            · rw [rootOf_two hc'']; exact rootOf_two hc'' _
        · rw [rootOf_one hc']; exact rootOf_one hc' _
    · rw [rootOf_cons_ne hc]; exact rootOf_cons_ne hc _
  unfold joinChars
  rw [if_neg hb]
  by_cases h0 : a = []
  · subst h0; rw [if_pos (.inl rfl), List.nil_append, rootOf_rel hb]; rfl
  by_cases h1 : a = ['/']
  · subst h1
    rw [if_pos (.inr rfl)]
    cases b with
    | nil => rfl
    | cons c cs => exact rootOf_one (by simpa using hb) cs
  by_cases h2 : a = ['/', '/']
  · subst h2
    rw [if_pos (.inr rfl)]
    cases b with
    | nil => rfl
    | cons c cs => exact rootOf_two (by simpa using hb) cs
  obtain ⟨c, l, rfl⟩ := List.exists_cons_of_ne_nil h0
  split
  · exact key c l h1 h2 _
  · exact key c l h1 h2 _

/-- A relative path stays relative. -/
theorem normChars_rel {b : List Char} (hb : b.head? ≠ some '/') :
    normChars b = (if normComps false b = [] then ['.'] else joinSlash (normComps false b)) ∧
      (normChars b).head? ≠ some '/' := by
  have hr := rootOf_rel hb
  have hmem : ∀ w ∈ normComps false b, w ≠ [] ∧ '/' ∉ w := by
    intro w hw
    rw [normComps, List.mem_reverse] at hw
    rcases normFold_mem _ [] hw with h | ⟨h, h'⟩
    · cases h
    · exact ⟨h'.1, (splitOnChar_piece h).1⟩
  have hhead : ∀ w ws, normComps false b = w :: ws →
      ∃ c cs, joinSlash (w :: ws) = c :: cs ∧ c ≠ '/' := by
    intro w ws hw
    obtain ⟨h1, h2⟩ := hmem w (by rw [hw]; exact List.mem_cons_self ..)
    obtain ⟨c, cs, rfl⟩ := List.exists_cons_of_ne_nil h1
    have hc : c ≠ '/' := fun e => h2 (e ▸ List.mem_cons_self ..)
    cases ws with
    | nil => exact ⟨c, cs, rfl, hc⟩
    | cons v vs => exact ⟨c, _, rfl, hc⟩
  have e : normChars b =
      (if normComps false b = [] then ['.'] else joinSlash (normComps false b)) := by
    unfold normChars
    simp only [hr, List.nil_append, ne_eq, not_true_eq_false, decide_false]
    cases hw : normComps false b with
    | nil => rfl
    | cons w ws =>
      obtain ⟨c, cs, h1, -⟩ := hhead w ws hw
      rw [if_neg (by rw [h1]; simp), if_neg (by simp)]
  refine ⟨e, ?_⟩
  rw [e]
  cases hw : normComps false b with
  | nil => decide
  | cons w ws =>
    obtain ⟨c, cs, h1, h2⟩ := hhead w ws hw
    rw [if_neg (by simp), h1]
    simpa using h2

/-- Normalising a relative path first makes no difference. -/
theorem normChars_join_norm {a b : List Char} (hb : b.head? ≠ some '/') :
    normChars (joinChars a (normChars b)) = normChars (joinChars a b) := by
  obtain ⟨e, hn⟩ := normChars_rel hb
  have key : ∀ root k, (splitOnChar '/' (normChars b)).foldl (normStep root) k =
      (splitOnChar '/' b).foldl (normStep root) k := by
    intro root k
    rw [← normFold_norm root k (splitOnChar '/' b)]
    show _ = (normComps false b).foldl (normStep root) k
    rw [e]
    by_cases h : normComps false b = []
    · rw [if_pos h, h]
      show normStep root k ['.'] = k
      unfold normStep; rw [if_pos (.inr rfl)]
    · rw [if_neg h, splitOnChar_joinSlash h]
      intro w hw
      rw [normComps, List.mem_reverse] at hw
      rcases normFold_mem _ [] hw with h | ⟨h, -⟩
      · cases h
      · exact (splitOnChar_piece h).1
  have : ∀ root, normComps root (joinChars a (normChars b)) = normComps root (joinChars a b) := by
    intro root
    unfold normComps
    rw [normFold_join root [] a _ hn, normFold_join root [] a b hb]
    exact congrArg List.reverse (key root _)
  generalize normChars b = nb at this hn
  unfold normChars
  simp only [rootOf_join hb, rootOf_join hn, this]

theorem joinSlash_chars : ∀ {ws : List (List Char)} {c : Char}, c ∈ joinSlash ws →
    c = '/' ∨ ∃ w ∈ ws, c ∈ w
  | [], _, h => by cases h
  | [w], _, h => .inr ⟨w, by simp, h⟩
  | w :: v :: ws, c, h => by
    simp only [joinSlash] at h
    rw [List.mem_append, List.mem_cons] at h
    rcases h with h | h | h
    · exact .inr ⟨w, by simp, h⟩
    · exact .inl h
    · rcases joinSlash_chars h with h | ⟨u, hu, h⟩
      · exact .inl h
      · exact .inr ⟨u, List.mem_cons_of_mem _ hu, h⟩

/-- Normalising brings in no characters but slashes and dots. -/
theorem normChars_chars {b : List Char} {c : Char} (hb : b.head? ≠ some '/')
    (h : c ∈ normChars b) : c = '/' ∨ c = '.' ∨ c ∈ b := by
  rw [(normChars_rel hb).1] at h
  split at h
  · exact .inr (.inl (List.mem_singleton.1 h))
  · rcases joinSlash_chars h with h | ⟨w, hw, h⟩
    · exact .inl h
    · rw [normComps, List.mem_reverse] at hw
      rcases normFold_mem _ [] hw with h' | ⟨h', -⟩
      · cases h'
      · exact .inr (.inr ((splitOnChar_piece h').2 _ h))

/-- A relative path given in a catalogue and joined with a directory names, after
normalisation, the same file as the path before normalisation. -/
theorem row_path {dir rel : String} (h1 : rel.toList.head? ≠ some '/') (h2 : '\\' ∉ rel.toList) :
    normPath (joinPath dir (unixSlashes (normPath rel))) = normPath (joinPath dir rel) := by
  have hu : unixSlashes (normPath rel) = normPath rel := by
    unfold unixSlashes
    rw [List.map_congr_left (g := id), List.map_id, String.ofList_toList]
    intro c hc
    rw [if_neg, id]
    rintro rfl
    have : '\\' ∈ normChars rel.toList := by simpa [normPath] using hc
    rcases normChars_chars h1 this with h | h | h
    · exact absurd h (by decide)
    · exact absurd h (by decide)
    · exact h2 h
  rw [hu]
  unfold normPath joinPath
  simp only [String.toList_ofList]
  rw [normChars_join_norm h1]

end Disp
