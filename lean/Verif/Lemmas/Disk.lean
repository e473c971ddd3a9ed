import Verif.Model.Disk
import Verif.Lemmas.Paths
/-!
# Path resolution on a disk
-/

namespace Disp

namespace Spec

/-- A disk is a tree: what exists lies in a directory. -/
def DiskTree (d : Disk) : Prop :=
  d [] = some .dir ∧ ∀ (l : Loc) (c : List Char), d (l ++ [c]) ≠ none → d l = some .dir

/-- A name that a file can have. -/
def FileName (c : List Char) : Prop :=
  c ≠ [] ∧ c ≠ ['.'] ∧ c ≠ ['.', '.'] ∧ '/' ∉ c ∧ '\x00' ∉ c ∧ (String.ofList c).utf8ByteSize ≤ 255

/-- The place that a path names, whatever is on the disk. -/
def follow : Loc → List (List Char) → Loc
  | cur, [] => cur
  | cur, c :: cs =>
    if c = [] ∨ c = ['.'] then follow cur cs
    else if c = ['.', '.'] then follow cur.dropLast cs
    else follow (cur ++ [c]) cs

/-- The place that a path names for a process in the directory `cwd`. -/
def target (cwd : Loc) (p : String) : Loc :=
  follow (if p.toList.head? = some '/' then [] else cwd) (splitOnChar '/' p.toList)

/-- The machine can make the temporary directory `t`, in which everything is allowed. -/
structure Workable (m : Machine) (d : Disk) (t : List Char) : Prop where
  tree : DiskTree d
  tempDir : d m.temp = some .dir
  tempNames : ∀ c ∈ m.temp, FileName c
  chosen : m.fresh d = some t
  freshName : FileName t
  fresh : d (m.temp ++ [t]) = none
  allowed : ∀ x, m.temp ++ [t] <+: x → m.writable x = true

end Spec

open Spec

theorem walk_follow {d : Disk} {cs : List (List Char)} {cur l : Loc}
    (h : d.walk cur cs = .ok l) : l = follow cur cs := by
  induction cs generalizing cur with
  | nil =>
    rw [Disk.walk] at h
    exact (Except.ok.inj h).symm
  | cons c cs ih =>
    rw [Disk.walk] at h
    rw [follow]
    split at h
    · split at h
      · rename_i hc; rw [if_pos hc]; exact ih h
      · rename_i hc; rw [if_neg hc]
        split at h
        · rename_i hc; rw [if_pos hc]; exact ih h
        · rename_i hc; rw [if_neg hc]
          split at h
          · exact ih h
          · cases h
    · cases h
    · cases h

theorem find_target {m : Machine} {d : Disk} {p : String} {l : Loc} (h : m.find d p = .ok l) :
    l = target m.cwd p := by
  unfold Machine.find at h
  split at h
  · cases h
  · split at h
    · cases h
    · exact walk_follow h

theorem Spec.DiskTree.up {d : Disk} (hd : DiskTree d) {l : Loc} {r : Loc} (hr : r ≠ [])
    (h : d (l ++ r) ≠ none) : d l = some .dir := by
  induction r using List.reverseRecOn with
  | nil => exact absurd rfl hr
  | append_singleton r c ih =>
    have h1 := hd.2 (l ++ r) c (by rwa [List.append_assoc])
    by_cases h0 : r = []
    · subst h0; simpa using h1
    · exact ih h0 (by rw [h1]; simp)

theorem Spec.DiskTree.below {d : Disk} (hd : DiskTree d) {l x : Loc} (hl : d l = none) (hx : l <+: x) :
    d x = none := by
  obtain ⟨r, rfl⟩ := hx
  by_contra h
  by_cases hr : r = []
  · subst hr; rw [List.append_nil] at h; exact h hl
  · rw [hd.up hr h] at hl; cases hl

theorem walk_names {d : Disk} (hd : DiskTree d) {cs : List (List Char)} {cur : Loc}
    (hn : ∀ c ∈ cs, FileName c) (h : cs = [] ∨ d (cur ++ cs.dropLast) = some .dir) :
    d.walk cur cs = .ok (cur ++ cs) := by
  induction cs generalizing cur with
  | nil => simp [Disk.walk]
  | cons c cs ih =>
    have h := h.resolve_left (by simp)
    have hc := hn c (by simp)
    have hcur : d cur = some .dir := by
      by_cases h0 : (c :: cs).dropLast = []
      · rw [h0, List.append_nil] at h; exact h
      · exact hd.up h0 (by rw [h]; simp)
    rw [Disk.walk, hcur]
    simp only
    rw [if_neg (by rintro (e | e); exacts [hc.1 e, hc.2.1 e]), if_neg hc.2.2.1,
      if_pos (by unfold fitsName; exact decide_eq_true hc.2.2.2.2.2),
      ih (fun x hx => hn x (List.mem_cons_of_mem _ hx))]
    · simp
    · cases cs with
      | nil => exact .inl rfl
      | cons e es => right; simpa using h

theorem walk_append {d : Disk} {a b : List (List Char)} {cur l : Loc}
    (h : d.walk cur a = .ok l) : d.walk cur (a ++ b) = d.walk l b := by
  induction a generalizing cur with
  | nil =>
    rw [Disk.walk] at h
    rw [Except.ok.inj h]; rfl
  | cons c cs ih =>
    rw [Disk.walk] at h
    rw [List.cons_append, Disk.walk]
    split at h
    · split at h
      · rename_i hc; rw [if_pos hc]; exact ih h
      · rename_i hc; rw [if_neg hc]
        split at h
        · rename_i hc; rw [if_pos hc]; exact ih h
        · rename_i hc; rw [if_neg hc]
          split at h
          · rename_i hc; rw [if_pos hc]; exact ih h
          · cases h
    · cases h
    · cases h

theorem follow_append (cur : Loc) (a b : List (List Char)) :
    follow cur (a ++ b) = follow (follow cur a) b := by
  induction a generalizing cur with
  | nil => rfl
  | cons c cs ih =>
    rw [List.cons_append, follow, follow]
    split
    · exact ih _
    · split <;> exact ih _

/-- A name in a directory. -/
theorem target_join (cwd : Loc) (a : String) {b : String} (hs : '/' ∉ b.toList)
    (h0 : b.toList ≠ []) (h1 : b.toList ≠ ['.']) (h2 : b.toList ≠ ['.', '.']) :
    target cwd (joinPath a b) = target cwd a ++ [b.toList] := by
  have hb : b.toList.head? ≠ some '/' := fun e => hs (List.mem_of_head? e)
  have hone : ∀ cur : Loc, follow cur [b.toList] = cur ++ [b.toList] := by
    intro cur
    rw [follow, if_neg (by rintro (e | e); exacts [h0 e, h1 e]), if_neg h2]
    rfl
  have hj : (joinPath a b).toList
      = if a.toList = [] ∨ a.toList.getLast? = some '/' then a.toList ++ b.toList
        else a.toList ++ '/' :: b.toList := by
    unfold joinPath joinChars
    rw [String.toList_ofList, if_neg hb]
  unfold target
  by_cases ha : a.toList = []
  · have hj' := hj.trans (if_pos (.inl ha))
    rw [ha, List.nil_append] at hj'
    rw [hj', ha, if_neg hb, splitOnChar_none hs, hone]
    simp [follow, splitOnChar]
  · have hhead : ∀ r, (a.toList ++ r).head? = a.toList.head? := by
      intro r
      cases h : a.toList with
      | nil => exact absurd h ha
      | cons c cs => rfl
    by_cases hl : a.toList.getLast? = some '/'
    · rw [hj.trans (if_pos (.inr hl)), hhead]
      obtain ⟨a0, ha0⟩ : ∃ a0, a.toList = a0 ++ ['/'] := List.getLast?_eq_some_iff.1 hl
      rw [ha0, List.append_assoc, List.singleton_append, splitOnChar_concat, splitOnChar_concat,
        splitOnChar_none hs, follow_append, follow_append, hone]
      simp [follow, splitOnChar]
    · rw [hj.trans (if_neg (by rintro (e | e); exacts [ha e, hl e])), hhead, splitOnChar_concat,
        splitOnChar_none hs, follow_append, hone]

/-- Path resolution needs directories only; more of them do no harm. -/
theorem walk_mono {d d' : Disk} (hdd : ∀ x, d x = some .dir → d' x = some .dir)
    {cs : List (List Char)} {cur l : Loc} (h : d.walk cur cs = .ok l) :
    d'.walk cur cs = .ok l := by
  induction cs generalizing cur with
  | nil => exact h
  | cons c cs ih =>
    rw [Disk.walk] at h ⊢
    split at h
    · rename_i hc0
      rw [hdd _ hc0]
      simp only
      split at h
      · rename_i hc; rw [if_pos hc]; exact ih h
      · rename_i hc; rw [if_neg hc]
        split at h
        · rename_i hc; rw [if_pos hc]; exact ih h
        · rename_i hc; rw [if_neg hc]
          split at h
          · rename_i hc; rw [if_pos hc]; exact ih h
          · cases h
    · cases h
    · cases h

theorem find_mono {m : Machine} {d d' : Disk} (hdd : ∀ x, d x = some .dir → d' x = some .dir)
    {p : String} {l : Loc} (h : m.find d p = .ok l) : m.find d' p = .ok l := by
  unfold Machine.find at h ⊢
  split at h
  · cases h
  · rename_i h1
    rw [if_neg h1]
    split at h
    · cases h
    · rename_i h2
      rw [if_neg h2]
      exact walk_mono hdd h

/-! ## Texts of places -/

theorem split_placeText {l : Loc} (h : ∀ c ∈ l, '/' ∉ c) :
    splitOnChar '/' (l.flatMap ('/' :: ·)) = [] :: l := by
  induction l using List.reverseRecOn with
  | nil => rfl
  | append_singleton l c ih =>
    rw [List.flatMap_append, List.flatMap_singleton, splitOnChar_concat,
      ih (fun x hx => h x (List.mem_append_left _ hx)), splitOnChar_none (h c (by simp))]
    rfl

theorem join_placeText {l : Loc} {c : List Char} (hc : FileName c) {s : String}
    (hs : s.toList.head? ≠ some '/') :
    (joinPath (placeText (l ++ [c])) s).toList
      = (l ++ [c]).flatMap ('/' :: ·) ++ '/' :: s.toList := by
  have hlast : ((l ++ [c]).flatMap ('/' :: ·)).getLast? ≠ some '/' := by
    rw [List.flatMap_append, List.flatMap_singleton]
    obtain ⟨y, hy⟩ : ∃ y, c.getLast? = some y := by
      rw [← Option.isSome_iff_exists, List.getLast?_isSome]; exact hc.1
    have hm : y ∈ c := List.mem_of_getLast? hy
    rw [List.getLast?_append, List.getLast?_cons, hy]
    simp only [Option.getD_some, Option.some_or, ne_eq, Option.some.injEq]
    rintro rfl
    exact hc.2.2.2.1 hm
  unfold joinPath joinChars placeText
  rw [String.toList_ofList, String.toList_ofList, if_neg hs, if_neg]
  rintro (h | h)
  · simp at h
  · exact hlast h

/-- Resolving a path inside of a directory. -/
theorem find_inside {m : Machine} {d : Disk} (hd : DiskTree d) {l : Loc} (hl : l ≠ [])
    (hn : ∀ c ∈ l, FileName c) (hdir : d l = some .dir) {s : String}
    (hs : s.toList.head? ≠ some '/') (h0 : '\x00' ∉ s.toList) :
    m.find d (joinPath (placeText l) s) = d.walk l (splitOnChar '/' s.toList) := by
  obtain ⟨l0, c, rfl⟩ : ∃ l0 c, l = l0 ++ [c] :=
    ⟨_, _, (List.dropLast_concat_getLast hl).symm⟩
  have hj := join_placeText (l := l0) (hn c (by simp)) hs
  have hsplit : splitOnChar '/' ((l0 ++ [c]).flatMap ('/' :: ·) ++ '/' :: s.toList)
      = ([] :: (l0 ++ [c])) ++ splitOnChar '/' s.toList := by
    rw [splitOnChar_concat, split_placeText (fun x hx => (hn x hx).2.2.2.1)]
  have hhead : ((l0 ++ [c]).flatMap ('/' :: ·) ++ '/' :: s.toList).head? = some '/' := by
    cases l0 <;> rfl
  unfold Machine.find
  rw [if_neg, if_neg, hj, hsplit]
  · unfold Machine.start
    rw [if_pos hhead]
    apply walk_append
    rw [Disk.walk, hd.1]
    simp only [true_or, if_true]
    rw [walk_names hd hn (.inr ?_)]
    · simp
    · rw [List.nil_append, List.dropLast_concat]
      exact hd.2 l0 c (by rw [hdir]; simp)
  · intro e
    have := congrArg String.toList e
    rw [hj] at this
    simp at this
  · rw [hj]
    intro hm
    rcases List.mem_append.1 hm with hm | hm
    · obtain ⟨x, hx, hm⟩ := List.mem_flatMap.1 hm
      rcases List.mem_cons.1 hm with e | hm
      · cases e
      · exact (hn x hx).2.2.2.2.1 hm
    · rcases List.mem_cons.1 hm with e | hm
      · cases e
      · exact h0 hm

/-- A file or directory that a path leads to lies in a directory. -/
theorem walk_parent {d : Disk} (hd : DiskTree d) {cs : List (List Char)} {cur l : Loc}
    (h : d.walk cur cs = .ok l) (hcur : cur = [] ∨ d cur.dropLast = some .dir) :
    l = [] ∨ d l.dropLast = some .dir := by
  induction cs generalizing cur with
  | nil => rw [Disk.walk] at h; rw [← Except.ok.inj h]; exact hcur
  | cons c cs ih =>
    rw [Disk.walk] at h
    split at h
    · rename_i hc0
      split at h
      · exact ih h hcur
      · split at h
        · refine ih h ?_
          by_cases h0 : cur.dropLast = []
          · exact .inl h0
          · right
            rcases hcur with rfl | hcur
            · exact absurd rfl h0
            · rw [← List.dropLast_concat_getLast h0] at hcur
              exact hd.2 _ _ (by rw [hcur]; simp)
        · split at h
          · exact ih h (.inr (by rw [List.dropLast_concat]; exact hc0))
          · cases h
    · cases h
    · cases h

theorem find_parent {m : Machine} {d : Disk} (hd : DiskTree d) {p : String} {l : Loc}
    (h : m.find d p = .ok l) : l = [] ∨ d l.dropLast = some .dir := by
  unfold Machine.find at h
  split at h
  · cases h
  · split at h
    · cases h
    · refine walk_parent hd h ?_
      by_cases h0 : m.start p.toList = []
      · exact .inl h0
      · right
        cases hs : splitOnChar '/' p.toList with
        | nil => exact absurd hs (splitOnChar_ne_nil _ _)
        | cons c cs =>
          rw [hs, Disk.walk] at h
          split at h
          · rename_i hc
            rw [← List.dropLast_concat_getLast h0] at hc
            exact hd.2 _ _ (by rw [hc]; simp)
          · cases h
          · cases h

theorem Spec.DiskTree.put {d : Disk} (hd : DiskTree d) {l : Loc} {n : Node}
    (hl : d l ≠ some .dir ∨ n = .dir) (h : l ≠ []) (hp : d l.dropLast = some .dir) :
    DiskTree (d.put l n) := by
  refine ⟨?_, ?_⟩
  · unfold Disk.put; rw [if_neg (fun e => h e.symm)]; exact hd.1
  · intro x e hx
    unfold Disk.put at hx ⊢
    by_cases h1 : x = l
    · rw [if_pos h1]
      rcases hl with hl | rfl
      · rw [if_neg (by rw [h1]; intro e; simpa using congrArg List.length e)] at hx
        exact absurd (h1 ▸ hd.2 x e hx) hl
      · rfl
    · rw [if_neg h1]
      by_cases h2 : x ++ [e] = l
      · rw [← h2, List.dropLast_concat] at hp; exact hp
      · rw [if_neg h2] at hx; exact hd.2 x e hx

theorem Spec.DiskTree.put_dir {d : Disk} (hd : DiskTree d) {l : Loc} {c : List Char}
    (hl : d l = some .dir) (h0 : d (l ++ [c]) = none) : DiskTree (d.put (l ++ [c]) .dir) := by
  refine ⟨?_, ?_⟩
  · unfold Disk.put; rw [if_neg (by simp)]; exact hd.1
  · intro x e hx
    unfold Disk.put at hx ⊢
    by_cases h1 : x = l ++ [c]
    · rw [if_pos h1]
    · rw [if_neg h1]
      by_cases h2 : x ++ [e] = l ++ [c]
      · rw [(List.append_inj' h2 rfl).1]; exact hl
      · rw [if_neg h2] at hx; exact hd.2 x e hx

end Disp
