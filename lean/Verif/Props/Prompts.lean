import Verif.Model.Setup
import Verif.Props.ConfigValid
/-!
# Questions to the user (C65, C76)
-/

namespace Disp

namespace Spec

/-- What an answer means: an empty one stands for the default. -/
def meant (dflt x : String) : String := if x = "" then dflt else x

/-- Answers that say yes. -/
def Yes (x : String) : Prop := x = "y" ∨ x = "yes"

/-- Answers that say no. -/
def No (x : String) : Prop := x = "n" ∨ x = "no"

end Spec

open Spec

/-- **C65** for `ask`: it returns exactly the first answer that the validator accepts, the default
for an empty one, after answers that were all rejected; the lines after it are left. -/
theorem C65_ask (valid : String → Res Bool) (dflt : String) (inputs : List String) (a : String)
    (rest : List String) :
    ask valid dflt inputs = .ok (a, rest) ↔
      ∃ rejected x, inputs = rejected ++ x :: rest ∧
        (∀ y ∈ rejected, valid (meant dflt y) = .ok false) ∧ valid (meant dflt x) = .ok true ∧
        a = meant dflt x := by
  induction inputs with
  | nil => simp [ask]
  | cons x inputs ih =>
    have hm : (if x = "" then dflt else x) = meant dflt x := rfl
    rw [ask, hm]
    cases hv : valid (meant dflt x) with
    | error e =>
      simp only [reduceCtorEq, false_iff]
      rintro ⟨rej, y, he, hr, hy, -⟩
      cases rej with
      | nil =>
        simp only [List.nil_append, List.cons.injEq] at he
        rw [he.1, hy] at hv
        cases hv
      | cons z rej =>
        simp only [List.cons_append, List.cons.injEq] at he
        have := hr z (by simp)
        rw [← he.1, hv] at this
        cases this
    | ok b =>
      cases b with
      | true =>
        simp only [Except.ok.injEq, Prod.mk.injEq]
        constructor
        · rintro ⟨rfl, rfl⟩
          exact ⟨[], x, rfl, by simp, hv, rfl⟩
        · rintro ⟨rej, y, he, hr, hy, ha⟩
          cases rej with
          | nil =>
            simp only [List.nil_append, List.cons.injEq] at he
            exact ⟨by rw [ha, he.1], he.2⟩
          | cons z rej =>
            simp only [List.cons_append, List.cons.injEq] at he
            have := hr z (by simp)
            rw [← he.1, hv] at this
            cases this
      | false =>
        simp only
        rw [ih]
        constructor
        · rintro ⟨rej, y, rfl, hr, hy, ha⟩
          refine ⟨x :: rej, y, rfl, ?_, hy, ha⟩
          intro z hz
          rcases List.mem_cons.1 hz with rfl | hz
          · exact hv
          · exact hr z hz
        · rintro ⟨rej, y, he, hr, hy, ha⟩
          cases rej with
          | nil =>
            simp only [List.nil_append, List.cons.injEq] at he
            rw [← he.1, hv] at hy
            cases hy
          | cons z rej =>
            simp only [List.cons_append, List.cons.injEq] at he
            exact ⟨rej, y, he.2, fun w hw => hr w (by simp [hw]), hy, ha⟩

/-- **C65** for `get_confirmation`: it is true exactly if the first recognised answer says yes;
unrecognised answers are skipped. -/
theorem C65_confirmation (inputs : List String) (b : Bool) (rest : List String) :
    getConfirmation inputs = .ok (b, rest) ↔
      ∃ skipped x, inputs = skipped ++ x :: rest ∧ (∀ y ∈ skipped, ¬ Yes y ∧ ¬ No y) ∧
        ((Yes x ∧ b = true) ∨ (No x ∧ b = false)) := by
  have excl : ∀ x, Yes x → ¬ No x := by
    rintro x (rfl | rfl) (h | h) <;> exact absurd h (by decide)
  induction inputs with
  | nil => simp [getConfirmation]
  | cons x inputs ih =>
    have hfirst : ∀ {sk : List String} {y : String}, x :: inputs = sk ++ y :: rest →
        (∀ z ∈ sk, ¬ Yes z ∧ ¬ No z) → (Yes x ∨ No x) → x = y ∧ inputs = rest := by
      intro sk y he hs hx
      cases sk with
      | nil =>
        simp only [List.nil_append, List.cons.injEq] at he
        exact he
      | cons z sk =>
        simp only [List.cons_append, List.cons.injEq] at he
        have := hs z (by simp)
        rw [← he.1] at this
        rcases hx with hx | hx
        · exact absurd hx this.1
        · exact absurd hx this.2
    rw [getConfirmation]
    by_cases hy : Yes x
    · rw [if_pos (show x = "y" ∨ x = "yes" from hy)]
      simp only [Except.ok.injEq, Prod.mk.injEq]
      constructor
      · rintro ⟨rfl, rfl⟩
        exact ⟨[], x, rfl, by simp, .inl ⟨hy, rfl⟩⟩
      · rintro ⟨sk, y, he, hs, hb⟩
        obtain ⟨rfl, hr⟩ := hfirst he hs (.inl hy)
        rcases hb with ⟨-, hb⟩ | ⟨hn, -⟩
        · exact ⟨hb.symm, hr⟩
        · exact absurd hn (excl _ hy)
    · rw [if_neg (show ¬ (x = "y" ∨ x = "yes") from hy)]
      by_cases hn : No x
      · rw [if_pos (show x = "n" ∨ x = "no" from hn)]
        simp only [Except.ok.injEq, Prod.mk.injEq]
        constructor
        · rintro ⟨rfl, rfl⟩
          exact ⟨[], x, rfl, by simp, .inr ⟨hn, rfl⟩⟩
        · rintro ⟨sk, y, he, hs, hb⟩
          obtain ⟨rfl, hr⟩ := hfirst he hs (.inr hn)
          rcases hb with ⟨hy', -⟩ | ⟨-, hb⟩
          · exact absurd hy' hy
          · exact ⟨hb.symm, hr⟩
      · rw [if_neg (show ¬ (x = "n" ∨ x = "no") from hn)]
        refine ih.trans ?_
        constructor
        · rintro ⟨sk, y, rfl, hs, hb⟩
          refine ⟨x :: sk, y, rfl, ?_, hb⟩
          intro z hz
          rcases List.mem_cons.1 hz with rfl | hz
          · exact ⟨hy, hn⟩
          · exact hs z hz
        · rintro ⟨sk, y, he, hs, hb⟩
          cases sk with
          | nil =>
            simp only [List.nil_append, List.cons.injEq] at he
            rcases hb with ⟨h, -⟩ | ⟨h, -⟩
            · exact absurd (he.1 ▸ h) hy
            · exact absurd (he.1 ▸ h) hn
          | cons z sk =>
            simp only [List.cons_append, List.cons.injEq] at he
            exact ⟨sk, y, he.2, fun w hw => hs w (by simp [hw]), hb⟩

/-- Without a recognised answer the question is never decided: the script waits for more. -/
theorem C65_undecided (inputs : List String) (h : ∀ x ∈ inputs, ¬ Yes x ∧ ¬ No x) :
    getConfirmation inputs = .error .eof := by
  induction inputs with
  | nil => rfl
  | cons x inputs ih =>
    obtain ⟨h1, h2⟩ := h x (by simp)
    rw [getConfirmation, if_neg (show ¬ (x = "y" ∨ x = "yes") from h1),
      if_neg (show ¬ (x = "n" ∨ x = "no") from h2)]
    exact ih (fun y hy => h y (by simp [hy]))

/-- **C65** for the loops of the script: what is returned was accepted by the validator and
confirmed right after it was given. -/
theorem C65_confirmed (valid : String → Res Bool) (dflt : String) (inputs : List String)
    (a : String) (rest : List String) (h : untilConfirmed valid dflt inputs = .ok (a, rest)) :
    ∃ before x skipped y, inputs = before ++ x :: (skipped ++ y :: rest) ∧ a = meant dflt x ∧
      valid a = .ok true ∧ (∀ z ∈ skipped, ¬ Yes z ∧ ¬ No z) ∧ Yes y := by
  induction hn : inputs.length using Nat.strong_induction_on generalizing inputs with
  | _ n ih =>
    subst hn
    have step : ∀ {a' : String} {b : Bool} {rest' : List String},
        askAndConfirm valid dflt inputs = .ok ((a', b), rest') →
        ∃ rej x sk y, inputs = rej ++ x :: (sk ++ y :: rest') ∧ a' = meant dflt x ∧
          valid a' = .ok true ∧ (∀ z ∈ sk, ¬ Yes z ∧ ¬ No z) ∧ (b = true → Yes y) := by
      intro a' b rest' hac
      unfold askAndConfirm at hac
      obtain ⟨⟨a1, r1⟩, h1, hac⟩ := except_bind_ok hac
      obtain ⟨⟨b2, r2⟩, h2, hac⟩ := except_bind_ok hac
      simp only [Except.ok.injEq, Prod.mk.injEq] at hac
      obtain ⟨⟨rfl, rfl⟩, rfl⟩ := hac
      obtain ⟨rej, x, hin, -, hx, rfl⟩ := (C65_ask _ _ _ _ _).1 h1
      obtain ⟨sk, y, hr1, hsk, hy⟩ := (C65_confirmation _ _ _).1 h2
      refine ⟨rej, x, sk, y, by rw [hin, hr1], rfl, hx, hsk, ?_⟩
      intro hb
      rcases hy with ⟨hy, -⟩ | ⟨-, hb'⟩
      · exact hy
      · rw [hb] at hb'; cases hb'
    rw [untilConfirmed] at h
    split at h
    · cases h
    · rename_i a' rest' hac
      simp only [Except.ok.injEq, Prod.mk.injEq] at h
      obtain ⟨rfl, rfl⟩ := h
      obtain ⟨rej, x, sk, y, hin, ha, hva, hsk, hy⟩ := step hac
      exact ⟨rej, x, sk, y, hin, ha, hva, hsk, hy rfl⟩
    · rename_i a' rest' hac
      obtain ⟨rej, x, sk, y, hin, -, -, -, -⟩ := step hac
      obtain ⟨before, x', sk', y', hr, hres⟩ := ih rest'.length (askAndConfirm_rest hac) rest' h rfl
      exact ⟨rej ++ x :: (sk ++ y :: before), x', sk', y', by rw [hin, hr]; simp, hres⟩

/-- **C65** for `rebuild_catalogue`: the answer counts only if it is exactly `y` or `n`. -/
theorem C65_really (inputs : List String) (b : Bool) (rest : List String) :
    reallyRebuild inputs = .ok (b, rest) ↔
      ∃ skipped x, inputs = skipped ++ x :: rest ∧ (∀ y ∈ skipped, y ≠ "y" ∧ y ≠ "n") ∧
        ((x = "y" ∧ b = true) ∨ (x = "n" ∧ b = false)) := by
  induction inputs with
  | nil => simp [reallyRebuild]
  | cons x inputs ih =>
    have hfirst : ∀ {sk : List String} {y : String}, x :: inputs = sk ++ y :: rest →
        (∀ z ∈ sk, z ≠ "y" ∧ z ≠ "n") → (x = "y" ∨ x = "n") → x = y ∧ inputs = rest := by
      intro sk y he hs hx
      cases sk with
      | nil =>
        simp only [List.nil_append, List.cons.injEq] at he
        exact he
      | cons z sk =>
        simp only [List.cons_append, List.cons.injEq] at he
        have := hs z (by simp)
        rw [← he.1] at this
        rcases hx with hx | hx
        · exact absurd hx this.1
        · exact absurd hx this.2
    rw [reallyRebuild]
    by_cases hn : x = "n"
    · rw [if_pos hn]
      simp only [Except.ok.injEq, Prod.mk.injEq]
      constructor
      · rintro ⟨rfl, rfl⟩
        exact ⟨[], x, rfl, by simp, .inr ⟨hn, rfl⟩⟩
      · rintro ⟨sk, y, he, hs, hb⟩
        obtain ⟨rfl, hr⟩ := hfirst he hs (.inr hn)
        rcases hb with ⟨hy, -⟩ | ⟨-, hb⟩
        · rw [hn] at hy; exact absurd hy (by decide)
        · exact ⟨hb.symm, hr⟩
    · rw [if_neg hn]
      by_cases hy : x = "y"
      · rw [if_pos hy]
        simp only [Except.ok.injEq, Prod.mk.injEq]
        constructor
        · rintro ⟨rfl, rfl⟩
          exact ⟨[], x, rfl, by simp, .inl ⟨hy, rfl⟩⟩
        · rintro ⟨sk, y, he, hs, hb⟩
          obtain ⟨rfl, hr⟩ := hfirst he hs (.inl hy)
          rcases hb with ⟨-, hb⟩ | ⟨hn', -⟩
          · exact ⟨hb.symm, hr⟩
          · exact absurd hn' hn
      · rw [if_neg hy, ih]
        constructor
        · rintro ⟨sk, y, rfl, hs, hb⟩
          refine ⟨x :: sk, y, rfl, ?_, hb⟩
          intro z hz
          rcases List.mem_cons.1 hz with rfl | hz
          · exact ⟨hy, hn⟩
          · exact hs z hz
        · rintro ⟨sk, y, he, hs, hb⟩
          cases sk with
          | nil =>
            simp only [List.nil_append, List.cons.injEq] at he
            rcases hb with ⟨h, -⟩ | ⟨h, -⟩
            · exact absurd (he.1.trans h) hy
            · exact absurd (he.1.trans h) hn
          | cons z sk =>
            simp only [List.cons_append, List.cons.injEq] at he
            exact ⟨sk, y, he.2, fun w hw => hs w (by simp [hw]), hb⟩

/-- The catalogue file changes only after a `y` that is not preceded by an `n`. -/
theorem C65_overwritten {F : Type} [PyFloat F] [CsvIO F] (build : Res (Frame F))
    (old : Option (List Char)) (inputs : List String)
    (h : (rebuildCatalogue build old inputs).2 ≠ old) :
    ∃ skipped rest, inputs = skipped ++ "y" :: rest ∧ "n" ∉ skipped ∧ ∃ f, build = .ok f := by
  unfold rebuildCatalogue at h
  split at h
  · exact absurd rfl h
  · exact absurd rfl h
  · rename_i rest hr
    obtain ⟨sk, x, hin, hs, hx⟩ := (C65_really _ _ _).1 hr
    have hx' : x = "y" := by
      rcases hx with ⟨hx, -⟩ | ⟨-, hb⟩
      · exact hx
      · cases hb
    subst hx'
    refine ⟨sk, rest, hin, fun hm => (hs _ hm).2 rfl, ?_⟩
    cases build with
    | ok f => exact ⟨f, rfl⟩
    | error e => exact absurd rfl h

theorem untilConfirmed_no {valid : String → Res Bool} {dflt : String} {inputs rest : List String}
    {a : String} (h : askAndConfirm valid dflt inputs = .ok ((a, false), rest)) :
    untilConfirmed valid dflt inputs = untilConfirmed valid dflt rest := by
  rw [untilConfirmed]
  split <;> simp_all

theorem untilConfirmed_yes {valid : String → Res Bool} {dflt : String} {inputs rest : List String}
    {a : String} (h : askAndConfirm valid dflt inputs = .ok ((a, true), rest)) :
    untilConfirmed valid dflt inputs = .ok (a, rest) := by
  rw [untilConfirmed]
  split <;> simp_all

/-- A relative path, a path that is not confirmed, the default with a strange confirmation. -/
example : untilConfirmed isAbs "/home/user" ["data", "/data", "no", "", "maybe", "yes", "x"] =
    .ok ("/home/user", ["x"]) := by
  rw [untilConfirmed_no (a := "/data") (rest := ["", "maybe", "yes", "x"]) rfl]
  exact untilConfirmed_yes rfl

example : getConfirmation ["Y", "", "no", "y"] = .ok (false, ["y"]) :=
  (C65_confirmation _ _ _).2 ⟨["Y", ""], "no", rfl, by
    intro y hy
    simp only [List.mem_cons, List.not_mem_nil, or_false] at hy
    rcases hy with rfl | rfl <;>
      exact ⟨by rintro (h | h) <;> exact absurd h (by decide),
        by rintro (h | h) <;> exact absurd h (by decide)⟩, .inr ⟨.inr rfl, rfl⟩⟩

end Disp
