import Verif.Props.DataEval
/-!
# C17 and C18: dispersion formulas
-/

namespace Disp

namespace XR

theorem pow_int (x : ℝ) (n : ℤ) (h : x ≠ 0 ∨ 0 ≤ n) (q : ℚ) (hq : q = n) :
    (PyFloat.pow (fin x) (lit q) : XR) = fin (x ^ n) := by
  subst hq
  show (if ((⌊(((n : ℚ) : ℝ))⌋ : ℤ) : ℝ) = (((n : ℚ) : ℝ)) then
    (if x = 0 ∧ (((n : ℚ) : ℝ)) < 0 then pinf else fin (x ^ ⌊(((n : ℚ) : ℝ))⌋)) else _) = _
  have hf : ⌊(((n : ℚ) : ℝ))⌋ = n := by rw [Rat.cast_intCast, Int.floor_intCast]
  rw [hf, if_pos (by rw [Rat.cast_intCast]), if_neg]
  rintro ⟨h0, hn⟩
  rw [Rat.cast_intCast] at hn
  have hn' : n < 0 := by exact_mod_cast hn
  rcases h with h | h
  · exact h h0
  · omega

theorem pow_pos {x : ℝ} (hx : 0 < x) (y : ℝ) : (PyFloat.pow (fin x) (fin y) : XR) = fin (x ^ y) := by
  show (if (⌊y⌋ : ℝ) = y then (if x = 0 ∧ y < 0 then pinf else fin (x ^ ⌊y⌋))
    else if x < 0 then nan else if x = 0 then (if y < 0 then pinf else fin 0) else fin (x ^ y)) = _
  split_ifs with h1 h2 h3 h4 h5
  · exact absurd h2.1 hx.ne'
  · congr 1
    conv_rhs => rw [← h1]
    rw [Real.rpow_intCast]
  · linarith
  · exact absurd h4 hx.ne'
  · exact absurd h4 hx.ne'
  · rfl

theorem sqF_fin (x : ℝ) : sqF (fin x) = fin (x ^ 2) := by
  unfold sqF
  rw [pow_int x 2 (Or.inr (by norm_num)) 2 (by norm_num)]
  congr 1

theorem sqrt_fin (x : ℝ) : (PyFloat.sqrt (fin x) : XR) = if x < 0 then nan else fin (Real.sqrt x) :=
  rfl

end XR

section generic
variable {F : Type} [PyFloat F]

/-! ### The loops over coefficient pairs -/

/-- Specification: a list of coefficient pairs, written one after the other. -/
def flat2 {α : Type} (ps : List (α × α)) : List α := ps.flatMap (fun p => [p.1, p.2])

/-- The common form of the coefficient loops. -/
def loop2 (p : List F) (start n : ℕ) (f : F → F → F → F) (init : F) : Res F :=
  (List.range n).foldlM (fun acc i => do
    let a ← pyIdx p (i * 2 + start)
    let b ← pyIdx p (i * 2 + (start + 1))
    .ok (f acc a b)) init

omit [PyFloat F] in
theorem loop2_ok (f : F → F → F → F) : ∀ (ps : List (F × F)) (pre : List F) (init : F),
    loop2 (pre ++ flat2 ps) pre.length ps.length f init =
      .ok (ps.foldl (fun acc p => f acc p.1 p.2) init) := by
  intro ps
  induction ps with
  | nil => intro pre init; rfl
  | cons ab ps ih =>
    intro pre init
    have e : pre ++ flat2 (ab :: ps) = (pre ++ [ab.1, ab.2]) ++ flat2 ps := by
      simp [flat2]
    have h0 : pyIdx ((pre ++ [ab.1, ab.2]) ++ flat2 ps) pre.length = .ok ab.1 := by
      simp [pyIdx, List.getElem?_append]
    have h1 : pyIdx ((pre ++ [ab.1, ab.2]) ++ flat2 ps) (pre.length + 1) = .ok ab.2 := by
      simp [pyIdx, List.getElem?_append]
    have ih' := ih (pre ++ [ab.1, ab.2]) (f init ab.1 ab.2)
    unfold loop2 at ih' ⊢
    rw [e, List.length_cons, List.range_succ_eq_map, List.foldlM_cons]
    simp only [List.foldlM_map]
    simp only [Nat.zero_mul, Nat.zero_add, h0, h1, bind, Except.bind]
    simp only [List.length_append, List.length_cons, List.length_nil] at ih'
    simp only [bind, Except.bind] at ih'
    rw [List.foldl_cons, ← ih']
    congr 1
    funext acc i
    have e1 : (i + 1) * 2 + pre.length = i * 2 + (pre.length + (0 + 1 + 1)) := by omega
    have e2 : (i + 1) * 2 + (pre.length + 1) = i * 2 + (pre.length + (0 + 1 + 1) + 1) := by omega
    simp only [Nat.succ_eq_add_one, e1, e2]

omit [PyFloat F] in
theorem pyIdx_lt {α : Type} {p : List α} {i : ℕ} (h : i < p.length) : ∃ x, pyIdx p i = .ok x :=
  ⟨p[i], by simp [pyIdx, h]⟩

omit [PyFloat F] in
theorem pyIdx_ge {α : Type} {p : List α} {i : ℕ} (h : p.length ≤ i) : pyIdx p i = .error .index := by
  simp [pyIdx, h]

omit [PyFloat F] in
theorem loop2_error (f : F → F → F → F) (p : List F) (start : ℕ) : ∀ (n : ℕ) (init : F),
    (∀ e, loop2 p start n f init = .error e → e = .index) ∧
    (n ≠ 0 → p.length < start + 2 * n → loop2 p start n f init = .error .index) := by
  intro n
  induction n with
  | zero => intro init; exact ⟨fun e h => (by cases h), fun h => absurd rfl h⟩
  | succ n ih =>
    intro init
    obtain ⟨h1, -⟩ := ih init
    have hstep : loop2 p start (n + 1) f init = (do
        let acc ← loop2 p start n f init
        let a ← pyIdx p (n * 2 + start)
        let b ← pyIdx p (n * 2 + (start + 1))
        .ok (f acc a b)) := by
      unfold loop2
      rw [List.range_succ, List.foldlM_append]
      congr 1
      funext acc
      rw [List.foldlM_cons]
      simp only [List.foldlM_nil, bind_pure]
    have herr : ∀ i e, pyIdx p i = .error e → e = .index := by
      intro i e h
      unfold pyIdx at h
      split at h <;> cases h
      rfl
    constructor
    · intro e h
      rw [hstep] at h
      simp only [bind, Except.bind] at h
      cases hl : loop2 p start n f init with
      | error e' => rw [hl] at h; cases h; exact h1 _ hl
      | ok acc =>
        rw [hl] at h
        simp only at h
        cases ha : pyIdx p (n * 2 + start) with
        | error e' => rw [ha] at h; cases h; exact herr _ _ ha
        | ok a =>
          rw [ha] at h
          simp only at h
          cases hb : pyIdx p (n * 2 + (start + 1)) with
          | error e' => rw [hb] at h; cases h; exact herr _ _ hb
          | ok b => rw [hb] at h; cases h
    · intro _ hlen
      rw [hstep]
      simp only [bind, Except.bind]
      cases hl : loop2 p start n f init with
      | error e' => rw [h1 _ hl]
      | ok acc =>
        simp only
        cases ha : pyIdx p (n * 2 + start) with
        | error e' => rw [herr _ _ ha]
        | ok a =>
          simp only
          rw [pyIdx_ge (by omega)]

/-- The formulas whose coefficients are `c0` followed by pairs, as one loop. -/
theorem pairFormula_eq (p : List F) (w : F) :
    sellmeierAt p w = (do
      let c0 ← pyIdx p 0
      let r ← loop2 p 1 (sliceLen p.length 1 p.length 2)
        (fun acc a b => acc + a * sqF w / (sqF w - sqF b)) (c0 * lit 1)
      .ok (PyFloat.sqrt (r + lit 1))) ∧
    sellmeier2At p w = (do
      let c0 ← pyIdx p 0
      let r ← loop2 p 1 (sliceLen p.length 1 p.length 2)
        (fun acc a b => acc + a * sqF w / (sqF w - b)) (c0 * lit 1)
      .ok (PyFloat.sqrt (r + lit 1))) ∧
    powerLoop p w = (do
      let c0 ← pyIdx p 0
      loop2 p 1 (sliceLen p.length 1 p.length 2)
        (fun acc a b => acc + a * PyFloat.pow w b) (c0 * lit 1)) ∧
    gasesAt p w = (do
      let c0 ← pyIdx p 0
      let r ← loop2 p 1 (sliceLen p.length 1 p.length 2)
        (fun acc a b => acc + a / (b - PyFloat.pow w (lit (-2)))) (c0 * lit 1)
      .ok (r + lit 1)) :=
  ⟨rfl, rfl, rfl, rfl⟩

theorem flat2_length {α : Type} (ps : List (α × α)) : (flat2 ps).length = 2 * ps.length := by
  induction ps with
  | nil => rfl
  | cons p ps ih => simp only [flat2, List.flatMap_cons, List.length_append, List.length_cons,
      List.length_nil] at ih ⊢; omega

/-- The formulas of the form `c0`, then pairs. -/
def IsPairFormula (k : Formula) : Prop :=
  k = .sellmeier ∨ k = .sellmeier2 ∨ k = .polynomial ∨ k = .cauchy ∨ k = .gases

/-- C17: a dangling coefficient (or an empty list) raises `IndexError`; every arithmetic. -/
theorem C17_dangling (k : Formula) (hk : IsPairFormula k) (p : List F) (w : F)
    (hp : p.length % 2 = 0) : k.at p w = .error .index := by
  obtain ⟨e1, e2, e3, e4⟩ := pairFormula_eq p w
  have hcases : (∃ e, pyIdx p 0 = .error e ∧ e = .index) ∨ ∃ c0, pyIdx p 0 = .ok c0 := by
    unfold pyIdx
    cases p[0]? with
    | none => exact .inl ⟨_, rfl, rfl⟩
    | some c => exact .inr ⟨c, rfl⟩
  have hl : ∀ f (init : F) c0, pyIdx p 0 = .ok c0 →
      loop2 p 1 (sliceLen p.length 1 p.length 2) f init = .error .index := by
    intro f init c0 h0
    have hpos : p.length ≠ 0 := by
      intro h
      rw [pyIdx_ge (by omega)] at h0
      cases h0
    have hs : sliceLen p.length 1 p.length 2 = p.length / 2 := by
      unfold sliceLen
      rw [min_self]
      omega
    rw [hs]
    exact (loop2_error f p 1 _ init).2 (by omega) (by omega)
  rcases hk with rfl | rfl | rfl | rfl | rfl <;>
    simp only [Formula.at, polynomialAt, cauchyAt, e1, e2, e3, e4] <;>
    rcases hcases with ⟨e, h0, rfl⟩ | ⟨c0, h0⟩ <;>
    simp only [h0, bind, Except.bind] <;>
    rw [hl _ _ _ h0]

/-- C17: too few coefficients for the formulas of fixed length; every arithmetic. -/
theorem C17_too_short (p : List F) (w : F) :
    (p.length < 6 → herzbergerAt p w = .error .index ∧ exoticAt p w = .error .index) ∧
    (p.length < 4 → retroAt p w = .error .index) := by
  constructor
  · intro h
    match p, h with
    | [], _ => exact ⟨rfl, rfl⟩
    | [_], _ => exact ⟨rfl, rfl⟩
    | [_, _], _ => exact ⟨rfl, rfl⟩
    | [_, _, _], _ => exact ⟨rfl, rfl⟩
    | [_, _, _, _], _ => exact ⟨rfl, rfl⟩
    | [_, _, _, _, _], _ => exact ⟨rfl, rfl⟩
  · intro h
    match p, h with
    | [], _ => rfl
    | [_], _ => rfl
    | [_, _], _ => rfl
    | [_, _, _], _ => rfl

/-- C17: formula 4 takes one coefficient, five, or nine followed by pairs; every other length
raises `IndexError`; every arithmetic. -/
theorem C17_refractiveIndexInfo_dangling (p : List F) (w : F)
    (hp : ¬(p.length = 1 ∨ p.length = 5 ∨ (9 ≤ p.length ∧ p.length % 2 = 1))) :
    Formula.at .refractiveIndexInfo p w = .error .index := by
  simp only [Formula.at]
  match p, hp with
  | [], _ => rfl
  | [_], hp => simp at hp
  | [_, _], _ => simp [refractiveIndexInfoAt, sliceLen, pyIdx, List.range_succ, bind,
      Except.bind]
  | [_, _, _], _ => simp [refractiveIndexInfoAt, sliceLen, pyIdx, List.range_succ, bind,
      Except.bind]
  | [_, _, _, _], _ => simp [refractiveIndexInfoAt, sliceLen, pyIdx, List.range_succ, bind,
      Except.bind]
  | [_, _, _, _, _], hp => simp at hp
  | [_, _, _, _, _, _], _ => simp [refractiveIndexInfoAt, sliceLen, pyIdx, List.range_succ, bind,
      Except.bind]
  | [_, _, _, _, _, _, _], _ => simp [refractiveIndexInfoAt, sliceLen, pyIdx, List.range_succ, bind,
      Except.bind]
  | [_, _, _, _, _, _, _, _], _ => simp [refractiveIndexInfoAt, sliceLen, pyIdx, List.range_succ, bind,
      Except.bind]
  | a :: b :: c :: d :: e :: f :: g :: h :: i :: rest, hp =>
    have hr : rest.length % 2 = 1 := by
      simp only [List.length_cons] at hp
      omega
    have hs : sliceLen (a :: b :: c :: d :: e :: f :: g :: h :: i :: rest).length 1 8 4 = 2 := by
      unfold sliceLen
      rw [Nat.min_eq_left (by simp only [List.length_cons]; omega)]
    have hs' : sliceLen (a :: b :: c :: d :: e :: f :: g :: h :: i :: rest).length 9
        (a :: b :: c :: d :: e :: f :: g :: h :: i :: rest).length 2 = (rest.length + 1) / 2 := by
      unfold sliceLen
      simp only [min_self, List.length_cons]
      omega
    unfold refractiveIndexInfoAt
    rw [hs, hs']
    have hl := fun init => (loop2_error (fun acc x y => acc + x * PyFloat.pow w y)
      (a :: b :: c :: d :: e :: f :: g :: h :: i :: rest) 9 ((rest.length + 1) / 2) init).2
      (by omega) (by simp only [List.length_cons]; omega)
    unfold loop2 at hl
    simp only [bind, Except.bind] at hl
    simp only [show List.range 2 = [0, 1] from rfl, List.foldlM_cons, List.foldlM_nil, bind,
      Except.bind, Nat.zero_mul, Nat.one_mul, Nat.zero_add, pyIdx, List.getElem?_cons_zero,
      List.getElem?_cons_succ, pure, Except.pure, Nat.reduceAdd]
    simp only [pyIdx, Nat.reduceAdd, List.getElem?_cons_succ] at hl
    rw [hl]

/-- What an evaluated model returns: the formula at every requested value, converted to
micrometres. -/
theorem C17_evaluate [SciPy F] (k : Formula) (p : List F) (raw : Raw F) (t u : String)
    (d : RealData F) (hd : RealData.newModel k p raw t u = .ok d) (s : Spectrum F) (v : Vals F)
    (hv : (d.evaluate s).1 = .ok v) :
    ∃ ws, s.convertTo t u = .ok ws ∧ v.toList.length = ws.toList.length ∧
      ∀ (i : ℕ) w, ws.toList[i]? = some w → ∃ n, v.toList[i]? = some n ∧ k.at p w = .ok n := by
  unfold RealData.newModel at hd
  simp only [bind, Except.bind] at hd
  cases hr : Spectrum.new raw t u with
  | error e => rw [hr] at hd; cases hd
  | ok r =>
    rw [hr] at hd
    simp only at hd
    cases hval : validateSpectrumType (F := F) k.required t u with
    | error e => rw [hval] at hd; cases hd
    | ok _ =>
      rw [hval] at hd
      have hd' : d = .model k p r t u := by cases hd; rfl
      subst hd'
      simp only [RealData.evaluate, bind, Except.bind] at hv
      cases hc : r.contains s with
      | error e => rw [hc] at hv; cases hv
      | ok b =>
        rw [hc] at hv
        simp only at hv
        cases hw : s.convertTo t u with
        | error e => rw [hw] at hv; cases hv
        | ok ws =>
          rw [hw] at hv
          simp only at hv
          refine ⟨ws, rfl, ?_⟩
          cases ws with
          | scalar x =>
            simp only [Vals.mapRes, bind, Except.bind] at hv
            cases hx : k.at p x with
            | error e => rw [hx] at hv; cases hv
            | ok y =>
              rw [hx] at hv
              cases hv
              refine ⟨rfl, fun i w hi => ?_⟩
              cases i with
              | zero => simp only [Vals.toList, List.getElem?_cons_zero, Option.some.injEq] at hi
                        subst hi
                        exact ⟨y, rfl, hx⟩
              | succ i => simp [Vals.toList] at hi
          | array dt xs =>
            simp only [Vals.mapRes, bind, Except.bind] at hv
            cases hx : xs.mapM (k.at p) with
            | error e => rw [hx] at hv; cases hv
            | ok ys =>
              rw [hx] at hv
              cases hv
              obtain ⟨h1, h2⟩ := mapM_getElem _ _ _ hx
              refine ⟨h1.symm, fun i w hi => ?_⟩
              obtain ⟨y, h3, h4⟩ := h2 i w hi
              exact ⟨y, h4, h3⟩

end generic

/-! ### Closed forms over the reals -/

/-- The sum of a term over all coefficient pairs. -/
noncomputable def sum2 (f : ℝ → ℝ → ℝ) (ps : List (ℝ × ℝ)) : ℝ := (ps.map (fun p => f p.1 p.2)).sum

noncomputable def finList (xs : List ℝ) : List XR := xs.map XR.fin

theorem finList_flat2 (ps : List (ℝ × ℝ)) :
    finList (flat2 ps) = flat2 (ps.map (fun p => (XR.fin p.1, XR.fin p.2))) := by
  unfold finList flat2
  rw [List.map_flatMap, List.flatMap_map]
  rfl

/-- Folding a term that is a real number for each pair gives the sum. -/
theorem foldl_sum2 (g : XR → XR → XR) (f : ℝ → ℝ → ℝ) (ps : List (ℝ × ℝ)) (c : ℝ)
    (h : ∀ p ∈ ps, g (XR.fin p.1) (XR.fin p.2) = XR.fin (f p.1 p.2)) :
    (ps.map (fun p => (XR.fin p.1, XR.fin p.2))).foldl (fun acc p => acc + g p.1 p.2) (XR.fin c) =
      XR.fin (c + sum2 f ps) := by
  induction ps generalizing c with
  | nil => simp [sum2]
  | cons p ps ih =>
    rw [List.map_cons, List.foldl_cons, h p (by simp), XR.add_fin,
      ih _ (fun q hq => h q (by simp [hq]))]
    simp [sum2, add_assoc]

theorem loop2_real (g : XR → XR → XR) (f : ℝ → ℝ → ℝ) (c : ℝ) (ps : List (ℝ × ℝ))
    (h : ∀ p ∈ ps, g (XR.fin p.1) (XR.fin p.2) = XR.fin (f p.1 p.2)) (n : ℕ)
    (hn : n = (c :: flat2 ps).length) :
    loop2 (finList (c :: flat2 ps)) 1 (sliceLen n 1 n 2)
      (fun acc a b => acc + g a b) (XR.fin c * lit 1) = .ok (XR.fin (c + sum2 f ps)) := by
  subst hn
  have hlen : sliceLen (c :: flat2 ps).length 1 (c :: flat2 ps).length 2 =
      (ps.map (fun p => (XR.fin p.1, XR.fin p.2))).length := by
    unfold sliceLen
    rw [min_self, List.length_cons, flat2_length, List.length_map]
    omega
  have hform : finList (c :: flat2 ps) =
      [XR.fin c] ++ flat2 (ps.map (fun p => (XR.fin p.1, XR.fin p.2))) := by
    rw [← finList_flat2]; rfl
  have := loop2_ok (fun acc a b => acc + g a b) (ps.map (fun p => (XR.fin p.1, XR.fin p.2)))
    [XR.fin c] (XR.fin c * lit 1)
  rw [hform, hlen]
  rw [show (1 : ℕ) = [XR.fin c].length from rfl, this]
  rw [LawfulOne.mul_one, foldl_sum2 g f ps c h]

/-- The square root as the code returns it: NaN below zero. -/
noncomputable def rootOrNaN (x : ℝ) : XR := if x < 0 then XR.nan else XR.fin (Real.sqrt x)

/-- C17, Sellmeier (formula 1): `n = sqrt(1 + C1 + sum B L²/(L² - C²))` for any number of
terms. -/
theorem C17_sellmeier (c : ℝ) (ps : List (ℝ × ℝ)) (w : ℝ)
    (h : ∀ p ∈ ps, w ^ 2 - p.2 ^ 2 ≠ 0) :
    Formula.at .sellmeier (finList (c :: flat2 ps)) (XR.fin w) =
      .ok (rootOrNaN (1 + c + sum2 (fun B C => B * w ^ 2 / (w ^ 2 - C ^ 2)) ps)) := by
  simp only [Formula.at]
  rw [(pairFormula_eq _ _).1]
  have hl := loop2_real (fun a b => a * sqF (XR.fin w) / (sqF (XR.fin w) - sqF b))
    (fun B C => B * w ^ 2 / (w ^ 2 - C ^ 2)) c ps (fun p hp => by
      simp only [XR.sqF_fin, XR.mul_fin, XR.sub_fin]
      rw [XR.div_fin_of_ne _ (h p hp)]) (finList (c :: flat2 ps)).length (by simp [finList])
  rw [show pyIdx (finList (c :: flat2 ps)) 0 = .ok (XR.fin c) from rfl]
  simp only [bind, Except.bind, hl]
  simp only [XR.lit_eq, XR.add_fin, XR.sqrt_fin]
  congr 1
  rw [rootOrNaN]
  have : c + sum2 (fun B C => B * w ^ 2 / (w ^ 2 - C ^ 2)) ps + ((1 : ℚ) : ℝ) =
    1 + c + sum2 (fun B C => B * w ^ 2 / (w ^ 2 - C ^ 2)) ps := by push_cast; ring
  rw [this]

/-- C17, Sellmeier-2 (formula 2): `n = sqrt(1 + C1 + sum B L²/(L² - C))`. -/
theorem C17_sellmeier2 (c : ℝ) (ps : List (ℝ × ℝ)) (w : ℝ)
    (h : ∀ p ∈ ps, w ^ 2 - p.2 ≠ 0) :
    Formula.at .sellmeier2 (finList (c :: flat2 ps)) (XR.fin w) =
      .ok (rootOrNaN (1 + c + sum2 (fun B C => B * w ^ 2 / (w ^ 2 - C)) ps)) := by
  simp only [Formula.at]
  rw [(pairFormula_eq _ _).2.1]
  have hl := loop2_real (fun a b => a * sqF (XR.fin w) / (sqF (XR.fin w) - b))
    (fun B C => B * w ^ 2 / (w ^ 2 - C)) c ps (fun p hp => by
      simp only [XR.sqF_fin, XR.mul_fin, XR.sub_fin]
      rw [XR.div_fin_of_ne _ (h p hp)]) (finList (c :: flat2 ps)).length (by simp [finList])
  rw [show pyIdx (finList (c :: flat2 ps)) 0 = .ok (XR.fin c) from rfl]
  simp only [bind, Except.bind, hl]
  simp only [XR.lit_eq, XR.add_fin, XR.sqrt_fin]
  congr 1
  rw [rootOrNaN]
  have : c + sum2 (fun B C => B * w ^ 2 / (w ^ 2 - C)) ps + ((1 : ℚ) : ℝ) =
    1 + c + sum2 (fun B C => B * w ^ 2 / (w ^ 2 - C)) ps := by push_cast; ring
  rw [this]

theorem powerLoop_real (c : ℝ) (ps : List (ℝ × ℝ)) (w : ℝ) (hw : 0 < w) :
    powerLoop (finList (c :: flat2 ps)) (XR.fin w) =
      .ok (XR.fin (c + sum2 (fun A P => A * w ^ P) ps)) := by
  rw [(pairFormula_eq _ _).2.2.1]
  have hl := loop2_real (fun a b => a * PyFloat.pow (XR.fin w) b)
    (fun A P => A * w ^ P) c ps (fun p hp => by
      rw [XR.pow_pos hw, XR.mul_fin]) (finList (c :: flat2 ps)).length (by simp [finList])
  rw [show pyIdx (finList (c :: flat2 ps)) 0 = .ok (XR.fin c) from rfl]
  simp only [bind, Except.bind, hl]

/-- C17, Polynomial (formula 3): `n = sqrt(C1 + sum A L^P)` (real exponents). -/
theorem C17_polynomial (c : ℝ) (ps : List (ℝ × ℝ)) (w : ℝ) (hw : 0 < w) :
    Formula.at .polynomial (finList (c :: flat2 ps)) (XR.fin w) =
      .ok (rootOrNaN (c + sum2 (fun A P => A * w ^ P) ps)) := by
  simp only [Formula.at, polynomialAt, powerLoop_real c ps w hw, bind, Except.bind, XR.sqrt_fin]
  rfl

/-- C17, Cauchy (formula 5): `n = C1 + sum A L^P`. -/
theorem C17_cauchy (c : ℝ) (ps : List (ℝ × ℝ)) (w : ℝ) (hw : 0 < w) :
    Formula.at .cauchy (finList (c :: flat2 ps)) (XR.fin w) =
      .ok (XR.fin (c + sum2 (fun A P => A * w ^ P) ps)) := by
  simp only [Formula.at, cauchyAt, powerLoop_real c ps w hw]

/-- C17, Gases (formula 6): `n = 1 + C1 + sum B/(C - L⁻²)`. -/
theorem C17_gases (c : ℝ) (ps : List (ℝ × ℝ)) (w : ℝ) (hw : 0 < w)
    (h : ∀ p ∈ ps, p.2 - 1 / w ^ 2 ≠ 0) :
    Formula.at .gases (finList (c :: flat2 ps)) (XR.fin w) =
      .ok (XR.fin (1 + c + sum2 (fun B C => B / (C - 1 / w ^ 2)) ps)) := by
  simp only [Formula.at]
  rw [(pairFormula_eq _ _).2.2.2]
  have hp2 : (PyFloat.pow (XR.fin w) (lit (-2)) : XR) = XR.fin (1 / w ^ 2) := by
    rw [XR.pow_int w (-2) (Or.inl hw.ne') (-2) (by norm_num)]
    congr 1
    rw [zpow_neg, one_div]
    norm_cast
  have hl := loop2_real (fun a b => a / (b - PyFloat.pow (XR.fin w) (lit (-2))))
    (fun B C => B / (C - 1 / w ^ 2)) c ps (fun p hp => by
      simp only [hp2, XR.sub_fin]
      rw [XR.div_fin_of_ne _ (h p hp)]) (finList (c :: flat2 ps)).length (by simp [finList])
  rw [show pyIdx (finList (c :: flat2 ps)) 0 = .ok (XR.fin c) from rfl]
  simp only [bind, Except.bind, hl]
  simp only [XR.lit_eq, XR.add_fin]
  congr 2
  push_cast
  ring

/-- C17, Herzberger (formula 7); coefficients after the sixth are not used. -/
theorem C17_herzberger (c0 c1 c2 c3 c4 c5 : ℝ) (rest : List ℝ) (w : ℝ) (h : w ^ 2 - 0.028 ≠ 0) :
    Formula.at .herzberger (finList (c0 :: c1 :: c2 :: c3 :: c4 :: c5 :: rest)) (XR.fin w) =
      .ok (XR.fin (c0 + c1 / (w ^ 2 - 0.028) + c2 * (1 / (w ^ 2 - 0.028)) ^ 2 + c3 * w ^ 2
        + c4 * w ^ 4 + c5 * w ^ 6)) := by
  have hp : (sqF (XR.fin w) - lit 0.028 : XR) = XR.fin (w ^ 2 - 0.028) := by
    rw [XR.sqF_fin, XR.lit_eq, XR.sub_fin]
    norm_num
  have e : ∀ (a b c d e f : XR) (r : List XR), herzbergerAt (a :: b :: c :: d :: e :: f :: r)
      (XR.fin w) = .ok (a * lit 1 + b * PyFloat.pow (sqF (XR.fin w) - lit 0.028) (lit (-1))
    + c * PyFloat.pow (sqF (XR.fin w) - lit 0.028) (lit (-2))
    + d * sqF (XR.fin w) + e * PyFloat.pow (XR.fin w) (lit 4)
    + f * PyFloat.pow (XR.fin w) (lit 6)) := fun _ _ _ _ _ _ _ => rfl
  simp only [Formula.at, finList, List.map_cons]
  rw [e, hp, XR.pow_int _ (-1) (Or.inl h) (-1) (by norm_num),
    XR.pow_int _ (-2) (Or.inl h) (-2) (by norm_num), XR.pow_int w 4 (Or.inr (by norm_num)) 4 (by norm_num),
    XR.pow_int w 6 (Or.inr (by norm_num)) 6 (by norm_num), XR.sqF_fin, LawfulOne.mul_one]
  simp only [XR.mul_fin, XR.add_fin]
  congr 2
  have h1 : (w ^ 2 - 0.028) ^ (-1 : ℤ) = 1 / (w ^ 2 - 0.028) := by rw [zpow_neg, one_div, zpow_one]
  have h2 : (w ^ 2 - 0.028) ^ (-2 : ℤ) = (1 / (w ^ 2 - 0.028)) ^ 2 := by
    rw [zpow_neg, one_div, inv_pow]; norm_cast
  rw [h1, h2]
  have h4 : w ^ (4 : ℤ) = w ^ 4 := by norm_cast
  have h6 : w ^ (6 : ℤ) = w ^ 6 := by norm_cast
  rw [h4, h6]
  ring

/-- C17, Exotic (formula 9). -/
theorem C17_exotic (c0 c1 c2 c3 c4 c5 : ℝ) (rest : List ℝ) (w : ℝ) (h1 : w ^ 2 - c2 ≠ 0)
    (h2 : (w - c4) ^ 2 + c5 ≠ 0) :
    Formula.at .exotic (finList (c0 :: c1 :: c2 :: c3 :: c4 :: c5 :: rest)) (XR.fin w) =
      .ok (rootOrNaN (c0 + c1 * w ^ 2 / (w ^ 2 - c2) + c3 * (w - c4) / ((w - c4) ^ 2 + c5))) := by
  have e : ∀ (a b c d e f : XR) (r : List XR), exoticAt (a :: b :: c :: d :: e :: f :: r)
      (XR.fin w) = .ok (PyFloat.sqrt (a * lit 1 + b * sqF (XR.fin w) / (sqF (XR.fin w) - c)
    + d * (XR.fin w - e) / (PyFloat.pow (XR.fin w - e) (lit 2) + f))) :=
    fun _ _ _ _ _ _ _ => rfl
  simp only [Formula.at, finList, List.map_cons]
  rw [e, LawfulOne.mul_one, XR.sub_fin, XR.pow_int _ 2 (Or.inr (by norm_num)) 2 (by norm_num), XR.sqF_fin]
  simp only [XR.mul_fin, XR.sub_fin, XR.add_fin]
  have h2' : (w - c4) ^ (2 : ℤ) + c5 ≠ 0 := by
    have : (w - c4) ^ (2 : ℤ) = (w - c4) ^ 2 := by norm_cast
    rwa [this]
  rw [XR.div_fin_of_ne _ h1, XR.div_fin_of_ne _ h2']
  simp only [XR.add_fin, XR.sqrt_fin]
  have : (w - c4) ^ (2 : ℤ) = (w - c4) ^ 2 := by norm_cast
  rw [this]
  rfl

/-! ### Formula 4 -/

/-- One quotient of formula 4. -/
noncomputable def riiTerm (w a p b q : ℝ) : ℝ := a * w ^ p / (w ^ 2 - b ^ q)

/-- The second loop of `RefractiveIndexInfo`. -/
theorem rii_tail (pre : List ℝ) (hpre : pre.length = 9) (ps : List (ℝ × ℝ)) (w : ℝ) (hw : 0 < w)
    (c : ℝ) (n : ℕ) (hn : n = (pre ++ flat2 ps).length) :
    loop2 (finList (pre ++ flat2 ps)) 9 (sliceLen n 9 n 2)
      (fun acc a b => acc + a * PyFloat.pow (XR.fin w) b) (XR.fin c) =
      .ok (XR.fin (c + sum2 (fun A P => A * w ^ P) ps)) := by
  subst hn
  have hlen : sliceLen (pre ++ flat2 ps).length 9 (pre ++ flat2 ps).length 2 =
      (ps.map (fun p => (XR.fin p.1, XR.fin p.2))).length := by
    unfold sliceLen
    rw [min_self, List.length_append, flat2_length, List.length_map]
    omega
  have hform : finList (pre ++ flat2 ps) =
      finList pre ++ flat2 (ps.map (fun p => (XR.fin p.1, XR.fin p.2))) := by
    rw [← finList_flat2]; unfold finList; rw [List.map_append]
  have := loop2_ok (fun acc a b => acc + a * PyFloat.pow (XR.fin w) b)
    (ps.map (fun p => (XR.fin p.1, XR.fin p.2))) (finList pre) (XR.fin c)
  rw [hform, hlen]
  have h9 : (finList pre).length = 9 := by simp [finList, hpre]
  rw [h9] at this
  rw [this, foldl_sum2 (fun a b => a * PyFloat.pow (XR.fin w) b) (fun A P => A * w ^ P) ps c
    (fun p _ => by rw [XR.pow_pos hw, XR.mul_fin])]

/-- C17, formula 4 of refractiveindex.info: `n = sqrt(C1 + C2 L^C3/(L²-C4^C5) +
C6 L^C7/(L²-C8^C9) + sum A L^P)`, for any number of trailing terms. -/
theorem C17_refractiveIndexInfo (c a p b q a' p' b' q' : ℝ) (ps : List (ℝ × ℝ)) (w : ℝ)
    (hw : 0 < w) (hb : 0 < b) (hb' : 0 < b') (h1 : w ^ 2 - b ^ q ≠ 0) (h2 : w ^ 2 - b' ^ q' ≠ 0) :
    Formula.at .refractiveIndexInfo (finList ([c, a, p, b, q, a', p', b', q'] ++ flat2 ps))
      (XR.fin w) =
      .ok (rootOrNaN (c + riiTerm w a p b q + riiTerm w a' p' b' q' +
        sum2 (fun A P => A * w ^ P) ps)) := by
  have htail := rii_tail [c, a, p, b, q, a', p', b', q'] rfl ps w hw
    (c + riiTerm w a p b q + riiTerm w a' p' b' q')
    (finList ([c, a, p, b, q, a', p', b', q'] ++ flat2 ps)).length (by simp [finList])
  have hs : sliceLen (finList ([c, a, p, b, q, a', p', b', q'] ++ flat2 ps)).length 1 8 4 = 2 := by
    unfold sliceLen
    have : (finList ([c, a, p, b, q, a', p', b', q'] ++ flat2 ps)).length = 9 + 2 * ps.length := by
      simp [finList, flat2_length]; omega
    rw [this, Nat.min_eq_left (by omega)]
  have t1 : (XR.fin a * PyFloat.pow (XR.fin w) (XR.fin p) /
      (sqF (XR.fin w) - PyFloat.pow (XR.fin b) (XR.fin q)) : XR) = XR.fin (riiTerm w a p b q) := by
    rw [XR.pow_pos hw, XR.pow_pos hb, XR.sqF_fin, XR.mul_fin, XR.sub_fin, XR.div_fin_of_ne _ h1]
    rfl
  have t2 : (XR.fin a' * PyFloat.pow (XR.fin w) (XR.fin p') /
      (sqF (XR.fin w) - PyFloat.pow (XR.fin b') (XR.fin q')) : XR) =
      XR.fin (riiTerm w a' p' b' q') := by
    rw [XR.pow_pos hw, XR.pow_pos hb', XR.sqF_fin, XR.mul_fin, XR.sub_fin, XR.div_fin_of_ne _ h2]
    rfl
  simp only [Formula.at]
  unfold refractiveIndexInfoAt
  rw [hs]
  have hp : ∀ i x, ([c, a, p, b, q, a', p', b', q'] : List ℝ)[i]? = some x →
      pyIdx (finList ([c, a, p, b, q, a', p', b', q'] ++ flat2 ps)) i = .ok (XR.fin x) := by
    intro i x hx
    unfold pyIdx finList
    have hi : i < ([c, a, p, b, q, a', p', b', q'] : List ℝ).length := by
      by_contra hc
      rw [List.getElem?_eq_none (by omega)] at hx
      cases hx
    rw [List.getElem?_map, List.getElem?_append_left hi, hx]
    rfl
  simp only [show List.range 2 = [0, 1] from rfl, List.foldlM_cons, List.foldlM_nil, bind,
    Except.bind, Nat.zero_mul, Nat.one_mul, Nat.zero_add, hp 0 c rfl, hp 1 a rfl, hp 2 p rfl,
    hp 3 b rfl, hp 4 q rfl, hp (4 + 1) a' rfl, hp (4 + 2) p' rfl, hp (4 + 3) b' rfl,
    hp (4 + 4) q' rfl, t1, t2, LawfulOne.mul_one, XR.add_fin, pure, Except.pure]
  unfold loop2 at htail
  simp only [bind, Except.bind] at htail
  rw [htail]
  rfl

/-- C17, formula 4 with one quotient or none. -/
theorem C17_refractiveIndexInfo_short (c a p b q w : ℝ)
    (hw : 0 < w) (hb : 0 < b) (h1 : w ^ 2 - b ^ q ≠ 0) :
    Formula.at .refractiveIndexInfo (finList [c, a, p, b, q]) (XR.fin w) =
      .ok (rootOrNaN (c + riiTerm w a p b q)) ∧
    Formula.at .refractiveIndexInfo (finList [c]) (XR.fin w) = .ok (rootOrNaN c) := by
  have t1 : (XR.fin a * PyFloat.pow (XR.fin w) (XR.fin p) /
      (sqF (XR.fin w) - PyFloat.pow (XR.fin b) (XR.fin q)) : XR) = XR.fin (riiTerm w a p b q) := by
    rw [XR.pow_pos hw, XR.pow_pos hb, XR.sqF_fin, XR.mul_fin, XR.sub_fin, XR.div_fin_of_ne _ h1]
    rfl
  constructor
  · have e : ∀ (c a p b q w : XR), refractiveIndexInfoAt [c, a, p, b, q] w =
        .ok (PyFloat.sqrt (c * lit 1 + a * PyFloat.pow w p / (sqF w - PyFloat.pow b q))) :=
      fun c a p b q w => by
        simp [refractiveIndexInfoAt, sliceLen, pyIdx, bind, Except.bind, pure, Except.pure]
    simp only [Formula.at, finList, List.map_cons, List.map_nil]
    rw [e, LawfulOne.mul_one, t1, XR.add_fin, XR.sqrt_fin]
    rfl
  · have e : ∀ (c w : XR), refractiveIndexInfoAt [c] w = .ok (PyFloat.sqrt (c * lit 1)) :=
      fun c w => by
        simp [refractiveIndexInfoAt, sliceLen, pyIdx, bind, Except.bind, pure, Except.pure]
    simp only [Formula.at, finList, List.map_cons, List.map_nil]
    rw [e, LawfulOne.mul_one, XR.sqrt_fin]
    rfl

/-- Concrete case: BK7 (three Sellmeier terms) at 0.5 µm. -/
example : Formula.at .sellmeier (finList [0, 1.03961212, 0.0774641, 0.231792344, 0.141484679,
      1.01046945, 10.1765]) (XR.fin 0.5) =
    .ok (rootOrNaN (1 + 0 + (1.03961212 * 0.5 ^ 2 / (0.5 ^ 2 - 0.0774641 ^ 2) +
      (0.231792344 * 0.5 ^ 2 / (0.5 ^ 2 - 0.141484679 ^ 2) +
      (1.01046945 * 0.5 ^ 2 / (0.5 ^ 2 - 10.1765 ^ 2) + 0))))) :=
  C17_sellmeier 0 [(1.03961212, 0.0774641), (0.231792344, 0.141484679), (1.01046945, 10.1765)] 0.5
    (by
      intro p hp
      simp only [List.mem_cons, List.not_mem_nil, or_false] at hp
      rcases hp with rfl | rfl | rfl <;> norm_num)

/-- Concrete case: a Sellmeier list of length two is refused. -/
example (x y w : XR) : Formula.at .sellmeier [x, y] w = .error .index :=
  C17_dangling .sellmeier (.inl rfl) [x, y] w (by simp)

/-! ## C18 -/

/-- The right-hand side of formula 8. -/
noncomputable def retroRhs (c0 c1 c2 c3 w : ℝ) : ℝ := c0 + c1 * w ^ 2 / (w ^ 2 - c2) + c3 * w ^ 2

/-- C18 (full statement, refuted below). -/
def C18_statement : Prop :=
  ∀ (c0 c1 c2 c3 w n : ℝ), w ^ 2 - c2 ≠ 0 →
    Formula.at .retro (finList [c0, c1, c2, c3]) (XR.fin w) = .ok (XR.fin n) →
    (n ^ 2 - 1) / (n ^ 2 + 2) = retroRhs c0 c1 c2 c3 w

theorem retro_value (c0 c1 c2 c3 : ℝ) (rest : List ℝ) (w : ℝ) (h : w ^ 2 - c2 ≠ 0)
    (hR : retroRhs c0 c1 c2 c3 w ≠ 1) :
    Formula.at .retro (finList (c0 :: c1 :: c2 :: c3 :: rest)) (XR.fin w) =
      .ok (XR.fin (retroRhs c0 c1 c2 c3 w / (1 - retroRhs c0 c1 c2 c3 w) +
        Real.sqrt ((retroRhs c0 c1 c2 c3 w / (1 - retroRhs c0 c1 c2 c3 w)) ^ 2
          + 1 / (1 - retroRhs c0 c1 c2 c3 w)))) := by
  have e : ∀ (a b c d w : XR) (r : List XR), retroAt (a :: b :: c :: d :: r) w =
      .ok (lit (-0.5) * (lit (-2) * (a * lit 1 + b * sqF w / (sqF w - c) + d * sqF w) /
        (lit 1 - (a * lit 1 + b * sqF w / (sqF w - c) + d * sqF w))) +
        PyFloat.sqrt (PyFloat.pow (lit 0.5 * (lit (-2) *
          (a * lit 1 + b * sqF w / (sqF w - c) + d * sqF w) /
        (lit 1 - (a * lit 1 + b * sqF w / (sqF w - c) + d * sqF w)))) (lit 2) -
        lit (-1) / (lit 1 - (a * lit 1 + b * sqF w / (sqF w - c) + d * sqF w)))) :=
    fun _ _ _ _ _ _ => rfl
  have hrhs : (XR.fin c0 * lit 1 + XR.fin c1 * sqF (XR.fin w) / (sqF (XR.fin w) - XR.fin c2) +
      XR.fin c3 * sqF (XR.fin w) : XR) = XR.fin (retroRhs c0 c1 c2 c3 w) := by
    rw [LawfulOne.mul_one, XR.sqF_fin, XR.mul_fin, XR.sub_fin, XR.div_fin_of_ne _ h, XR.mul_fin,
      XR.add_fin, XR.add_fin]
    rfl
  simp only [Formula.at, finList, List.map_cons]
  rw [e, hrhs]
  generalize retroRhs c0 c1 c2 c3 w = R at hR ⊢
  have hne : (1 : ℝ) - R ≠ 0 := sub_ne_zero.2 (Ne.symm hR)
  have hsub : (lit 1 - XR.fin R : XR) = XR.fin (1 - R) := by
    rw [XR.lit_eq, XR.sub_fin]; congr 1; push_cast; ring
  rw [hsub, XR.lit_eq (-2), XR.mul_fin, XR.div_fin_of_ne _ hne, XR.lit_eq (-1),
    XR.div_fin_of_ne _ hne, XR.lit_eq (-0.5), XR.lit_eq 0.5, XR.mul_fin, XR.mul_fin,
    XR.pow_int _ 2 (Or.inr (by norm_num)) 2 (by norm_num), XR.sub_fin]
  have hrad : (((0.5 : ℚ) : ℝ) * (((-2 : ℚ) : ℝ) * R / (1 - R))) ^ (2 : ℤ) -
      ((-1 : ℚ) : ℝ) / (1 - R) = (R / (1 - R)) ^ 2 + 1 / (1 - R) := by
    have : (((0.5 : ℚ) : ℝ) * (((-2 : ℚ) : ℝ) * R / (1 - R))) = -(R / (1 - R)) := by
      push_cast; ring
    rw [this]
    have h2 : (-(R / (1 - R))) ^ (2 : ℤ) = (R / (1 - R)) ^ 2 := by
      norm_cast; ring
    rw [h2]; push_cast; ring
  have hpos : 0 ≤ (R / (1 - R)) ^ 2 + 1 / (1 - R) := by
    have : (R / (1 - R)) ^ 2 + 1 / (1 - R) = (R ^ 2 - R + 1) / (1 - R) ^ 2 := by
      field_simp; ring
    rw [this]
    apply div_nonneg _ (sq_nonneg _)
    nlinarith [sq_nonneg (R - 1 / 2)]
  rw [hrad, XR.sqrt_fin_nonneg hpos, XR.add_fin]
  congr 2
  congr 1
  push_cast
  ring

/-- C18, what the code solves instead: the returned index satisfies `n²-1 = R (n²+2n)`, and it
satisfies the documented equation `n²-1 = R (n²+2)` only if the right-hand side `R` vanishes.
Missing: the documented equation, which does not hold. -/
theorem C18_retro_partial (c0 c1 c2 c3 : ℝ) (rest : List ℝ) (w : ℝ) (h : w ^ 2 - c2 ≠ 0)
    (hR : retroRhs c0 c1 c2 c3 w ≠ 1) :
    ∃ n, Formula.at .retro (finList (c0 :: c1 :: c2 :: c3 :: rest)) (XR.fin w) = .ok (XR.fin n) ∧
      n ^ 2 - 1 = retroRhs c0 c1 c2 c3 w * (n ^ 2 + 2 * n) ∧
      (n ^ 2 - 1 = retroRhs c0 c1 c2 c3 w * (n ^ 2 + 2) ↔ retroRhs c0 c1 c2 c3 w = 0) := by
  refine ⟨_, retro_value c0 c1 c2 c3 rest w h hR, ?_⟩
  generalize retroRhs c0 c1 c2 c3 w = R at hR ⊢
  have hne : (1 : ℝ) - R ≠ 0 := sub_ne_zero.2 (Ne.symm hR)
  have hpos : 0 ≤ (R / (1 - R)) ^ 2 + 1 / (1 - R) := by
    have : (R / (1 - R)) ^ 2 + 1 / (1 - R) = (R ^ 2 - R + 1) / (1 - R) ^ 2 := by
      field_simp; ring
    rw [this]
    apply div_nonneg _ (sq_nonneg _)
    nlinarith [sq_nonneg (R - 1 / 2)]
  have hsq := Real.sq_sqrt hpos
  generalize Real.sqrt ((R / (1 - R)) ^ 2 + 1 / (1 - R)) = s at hsq
  have key : (R / (1 - R) + s) ^ 2 - 1 = R * ((R / (1 - R) + s) ^ 2 + 2 * (R / (1 - R) + s)) := by
    have hq : R / (1 - R) * (1 - R) = R := by field_simp
    generalize hqd : R / (1 - R) = q at hq hsq
    have h1 : s ^ 2 * (1 - R) = q ^ 2 * (1 - R) + 1 := by
      rw [hsq]; field_simp
    linear_combination h1 + (2 * s + 2 * q) * hq
  refine ⟨key, ?_, ?_⟩
  · intro h'
    generalize R / (1 - R) + s = n at key h'
    by_contra hR0
    have h2 : R * (2 * n) = R * 2 := by linarith
    have h3 : n = 1 := by
      have := mul_left_cancel₀ hR0 h2
      linarith
    subst h3
    have : R * 3 = 0 := by linarith
    exact hR0 (by linarith)
  · intro h0
    rw [key, h0]; ring

/-- C18 is false, e.g. for the coefficients [1/2, 0, 0, 0] at 1 µm. -/
theorem C18_refuted : ¬ C18_statement := by
  intro hst
  have hr : retroRhs (1 / 2) 0 0 0 1 = 1 / 2 := by norm_num [retroRhs]
  obtain ⟨n, h1, -, h3⟩ := C18_retro_partial (1 / 2) 0 0 0 [] 1 (by norm_num) (by rw [hr]; norm_num)
  have h4 := hst (1 / 2) 0 0 0 1 n (by norm_num) h1
  have h5 : retroRhs (1 / 2) 0 0 0 1 = 0 := by
    rw [← h3, ← h4]
    have : n ^ 2 + 2 ≠ 0 := by positivity
    field_simp
  rw [hr] at h5
  norm_num at h5

end Disp
