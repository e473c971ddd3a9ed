import Verif.Lemmas.SumRounding
import Verif.Lemmas.PrintRounding
/-!
# Relative errors of signed numbers

`SNear n x y`: both are zero, or they have the same sign and differ by at most `n` roundings.
-/

namespace Disp

noncomputable section

/-- Both numbers are zero, or they have the same sign and differ by at most `n` roundings. -/
def SNear (n : ℕ) (x y : ℝ) : Prop := (x = 0 ∧ y = 0) ∨ (0 < x * y ∧ Near n |x| |y|)

namespace SNear

theorem refl (x : ℝ) : SNear 0 x x := by
  rcases eq_or_ne x 0 with rfl | h
  · exact .inl ⟨rfl, rfl⟩
  · exact .inr ⟨mul_self_pos.2 h, Near.refl (abs_pos.2 h)⟩

theorem mono {m n : ℕ} {x y : ℝ} (h : SNear m x y) (hmn : m ≤ n) : SNear n x y := by
  rcases h with h | ⟨h1, h2⟩
  · exact .inl h
  · exact .inr ⟨h1, h2.mono hmn⟩

theorem zero_iff {n : ℕ} {x y : ℝ} (h : SNear n x y) : x = 0 ↔ y = 0 := by
  rcases h with ⟨h1, h2⟩ | ⟨h1, -⟩
  · exact iff_of_true h1 h2
  · exact iff_of_false (fun h => by rw [h, zero_mul] at h1; exact lt_irrefl _ h1)
      (fun h => by rw [h, mul_zero] at h1; exact lt_irrefl _ h1)

theorem neg {n : ℕ} {x y : ℝ} (h : SNear n x y) : SNear n (-x) (-y) := by
  rcases h with ⟨rfl, rfl⟩ | ⟨h1, h2⟩
  · exact .inl ⟨neg_zero, neg_zero⟩
  · exact .inr ⟨by rwa [neg_mul_neg], by rwa [abs_neg, abs_neg]⟩

theorem mul {m n : ℕ} {x y x' y' : ℝ} (h : SNear m x y) (h' : SNear n x' y') :
    SNear (m + n) (x * x') (y * y') := by
  rcases h with ⟨rfl, rfl⟩ | ⟨h1, h2⟩
  · exact .inl ⟨zero_mul _, zero_mul _⟩
  rcases h' with ⟨rfl, rfl⟩ | ⟨h3, h4⟩
  · exact .inl ⟨mul_zero _, mul_zero _⟩
  refine .inr ⟨?_, ?_⟩
  · rw [mul_mul_mul_comm]; exact mul_pos h1 h3
  · rw [abs_mul, abs_mul]; exact h2.mul h4

theorem div {m n : ℕ} {x y x' y' : ℝ} (h : SNear m x y) (h' : SNear n x' y') :
    SNear (m + n) (x / x') (y / y') := by
  rcases h with ⟨rfl, rfl⟩ | ⟨h1, h2⟩
  · exact .inl ⟨zero_div _, zero_div _⟩
  rcases h' with ⟨rfl, rfl⟩ | ⟨h3, h4⟩
  · exact .inl ⟨div_zero _, div_zero _⟩
  refine .inr ⟨?_, ?_⟩
  · rw [div_mul_div_comm]; exact div_pos h1 h3
  · rw [abs_div, abs_div]; exact h2.div h4

/-- Numbers of the same sign. -/
theorem add {n : ℕ} {x y x' y' : ℝ} (h : SNear n x y) (h' : SNear n x' y') (hs : 0 ≤ x * x') :
    SNear n (x + x') (y + y') := by
  rcases h with ⟨rfl, rfl⟩ | ⟨h1, h2⟩
  · rwa [zero_add, zero_add]
  rcases h' with ⟨rfl, rfl⟩ | ⟨h3, h4⟩
  · rw [add_zero, add_zero]; exact .inr ⟨h1, h2⟩
  have hx : x ≠ 0 := fun h => by rw [h, zero_mul] at h1; exact lt_irrefl _ h1
  have hx' : x' ≠ 0 := fun h => by rw [h, zero_mul] at h3; exact lt_irrefl _ h3
  have hp : ∀ {a b : ℝ}, 0 < a → 0 < b → |a + b| = |a| + |b| := by
    intro a b ha hb
    rw [abs_of_pos ha, abs_of_pos hb, abs_of_pos (by linarith)]
  have hn : ∀ {a b : ℝ}, a < 0 → b < 0 → |a + b| = |a| + |b| := by
    intro a b ha hb
    rw [abs_of_neg ha, abs_of_neg hb, abs_of_neg (by linarith)]; ring
  rcases lt_or_gt_of_ne hx with hx | hx
  · have hx' : x' < 0 := by
      rcases lt_or_gt_of_ne hx' with h | h
      · exact h
      · nlinarith [mul_neg_of_neg_of_pos hx h]
    have hy : y < 0 := by
      by_contra h
      nlinarith [mul_nonpos_of_nonpos_of_nonneg hx.le (not_lt.1 h)]
    have hy' : y' < 0 := by
      by_contra h
      nlinarith [mul_nonpos_of_nonpos_of_nonneg hx'.le (not_lt.1 h)]
    refine .inr ⟨mul_pos_of_neg_of_neg (by linarith) (by linarith), ?_⟩
    rw [hn hx hx', hn hy hy']
    exact h2.add h4
  · have hx' : 0 < x' := by
      rcases lt_or_gt_of_ne hx' with h | h
      · nlinarith [mul_neg_of_pos_of_neg hx h]
      · exact h
    have hy : 0 < y := by
      by_contra h
      nlinarith [mul_nonpos_of_nonneg_of_nonpos hx.le (not_lt.1 h)]
    have hy' : 0 < y' := by
      by_contra h
      nlinarith [mul_nonpos_of_nonneg_of_nonpos hx'.le (not_lt.1 h)]
    refine .inr ⟨mul_pos (by linarith) (by linarith), ?_⟩
    rw [hp hx hx', hp hy hy']
    exact h2.add h4

/-- The error. -/
theorem abs_sub_le {n : ℕ} {x y : ℝ} (h : SNear n x y) (hn : n ≤ 2 ^ 20) :
    |y - x| ≤ |x| * (n + 1) / 2 ^ 53 := by
  rcases h with ⟨rfl, rfl⟩ | ⟨h1, h2⟩
  · simp
  have h3 := h2.abs_sub_le hn
  have e : abs (|y| - |x|) = |y - x| := by
    rcases lt_trichotomy x 0 with hx | hx | hx
    · have hy : y < 0 := by
        by_contra h
        nlinarith [mul_nonpos_of_nonpos_of_nonneg hx.le (not_lt.1 h)]
      rw [abs_of_neg hx, abs_of_neg hy, abs_sub_comm]
      congr 1; ring
    · rw [hx, zero_mul] at h1; exact absurd h1 (lt_irrefl _)
    · have hy : 0 < y := by
        by_contra h
        nlinarith [mul_nonpos_of_nonneg_of_nonpos hx.le (not_lt.1 h)]
      rw [abs_of_pos hx, abs_of_pos hy]
  rwa [e] at h3

end SNear

theorem Dbl.rnd_of_neg {x z : ℝ} (h : |nearest x| < 2 ^ 1024)
    (hz : (Dbl.rnd (.fin x)).val = .fin z) : (Dbl.rnd (.fin (-x))).val = .fin (-z) := by
  rw [Dbl.rnd_fin h] at hz
  injection hz with hz
  rw [Dbl.rnd_fin (by rwa [nearest_neg, abs_neg]), nearest_neg, hz]

theorem Dbl.rnd_near_abs {n k : ℕ} {x y : ℝ} (h : Near n x y) (hm : Mag k x) (hn : n ≤ 99)
    (hk : k ≤ 300) : ∃ z, (Dbl.rnd (.fin y)).val = .fin z ∧ (Dbl.rnd (.fin (-y))).val = .fin (-z) ∧
      Near (n + 1) x z := by
  obtain ⟨z, h1, h2⟩ := Dbl.rnd_near h hm hn hk
  refine ⟨z, h1, Dbl.rnd_of_neg ?_ h1, h2⟩
  by_contra hc
  have h3 : (Dbl.rnd (.fin y)).val = .pinf := by
    have e : Dbl.rnd (.fin y) = ⟨.pinf, trivial⟩ := (dif_neg hc).trans (if_pos h.right)
    rw [e]; rfl
  rw [h1] at h3
  cases h3

/-- The double approximates the number, which is zero or of magnitude at most `10^±k`, with at most
`n` roundings. -/
structure SRel (n k : ℕ) (x : ℝ) (a : Dbl) : Prop where
  near : ∃ y, a.val = .fin y ∧ SNear n x y
  size : x = 0 ∨ Mag k |x|

namespace SRel

theorem mono {m n j k : ℕ} {x : ℝ} {a : Dbl} (h : SRel m j x a) (hn : m ≤ n) (hk : j ≤ k) :
    SRel n k x a := by
  obtain ⟨⟨y, h1, h2⟩, h3⟩ := h
  exact ⟨⟨y, h1, h2.mono hn⟩, h3.imp_right (·.mono hk)⟩

theorem exact {x : ℝ} {k : ℕ} {a : Dbl} (ha : a.val = .fin x) (h : x = 0 ∨ Mag k |x|) :
    SRel 0 k x a := ⟨⟨x, ha, SNear.refl x⟩, h⟩

theorem zero : SRel 0 0 0 (lit 0 : Dbl) := by
  refine exact ?_ (.inl rfl)
  have := Dbl.rnd_double (Dbl.double_int (n := 0) (by norm_num))
  rw [Dbl.val_lit]
  push_cast at this ⊢
  exact this

theorem one : SRel 0 0 1 (lit 1 : Dbl) := by
  refine exact ?_ (.inr ⟨by norm_num, by norm_num⟩)
  have := Dbl.rnd_double (Dbl.double_int (n := 1) (by norm_num))
  rw [Dbl.val_lit]
  push_cast at this ⊢
  exact this

/-- Rounding. -/
theorem rnd {n k : ℕ} {x y : ℝ} (h : SNear n x y) (hm : x = 0 ∨ Mag k |x|) (hn : n ≤ 99)
    (hk : k ≤ 300) : SRel (n + 1) k x (Dbl.rnd (.fin y)) := by
  refine ⟨?_, hm⟩
  rcases h with ⟨rfl, rfl⟩ | ⟨h1, h2⟩
  · exact ⟨0, Dbl.rnd_double ⟨0, 0, by norm_num, by norm_num, by norm_num, by simp⟩,
      .inl ⟨rfl, rfl⟩⟩
  have hx : x ≠ 0 := fun h => by rw [h, zero_mul] at h1; exact lt_irrefl _ h1
  have hm := hm.resolve_left hx
  obtain ⟨z, h3, h4, h5⟩ := Dbl.rnd_near_abs h2 hm hn hk
  have hz := h5.right
  rcases lt_or_gt_of_ne hx with hx | hx
  · have hy : y < 0 := by
      by_contra h
      nlinarith [mul_nonpos_of_nonpos_of_nonneg hx.le (not_lt.1 h)]
    rw [abs_of_neg hy, neg_neg] at h4
    exact ⟨_, h4, .inr ⟨mul_pos_of_neg_of_neg hx (by linarith), by rwa [abs_neg, abs_of_pos hz]⟩⟩
  · have hy : 0 < y := by
      by_contra h
      nlinarith [mul_nonpos_of_nonneg_of_nonpos hx.le (not_lt.1 h)]
    rw [abs_of_pos hy] at h3
    exact ⟨_, h3, .inr ⟨mul_pos hx hz, by rwa [abs_of_pos hz]⟩⟩

theorem mul {m n j k : ℕ} {x z : ℝ} {a b : Dbl} (ha : SRel m j x a) (hb : SRel n k z b)
    (hn : m + n ≤ 99) (hk : j + k ≤ 300) : SRel (m + n + 1) (j + k) (x * z) (a * b) := by
  obtain ⟨⟨y, h1, h2⟩, h3⟩ := ha
  obtain ⟨⟨y', h1', h2'⟩, h3'⟩ := hb
  rw [Dbl.val_mul, h1, h1', XR.mul_fin]
  refine rnd (h2.mul h2') ?_ hn hk
  rcases h3 with rfl | h3
  · exact .inl (zero_mul _)
  rcases h3' with rfl | h3'
  · exact .inl (mul_zero _)
  right; rw [abs_mul]; exact h3.mul h3'

theorem div {m n j k : ℕ} {x z : ℝ} {a b : Dbl} (ha : SRel m j x a) (hb : SRel n k z b)
    (hz : z ≠ 0) (hn : m + n ≤ 99) (hk : j + k ≤ 300) :
    SRel (m + n + 1) (j + k) (x / z) (a / b) := by
  obtain ⟨⟨y, h1, h2⟩, h3⟩ := ha
  obtain ⟨⟨y', h1', h2'⟩, h3'⟩ := hb
  rw [Dbl.val_div, h1, h1', XR.div_fin_of_ne _ (fun h => hz (h2'.zero_iff.2 h))]
  refine rnd (h2.div h2') ?_ hn hk
  rcases h3 with rfl | h3
  · exact .inl (zero_div _)
  right; rw [abs_div]; exact h3.div (h3'.resolve_left hz)

theorem neg {n k : ℕ} {x : ℝ} {a : Dbl} (ha : SRel n k x a) : SRel n k (-x) (-a) := by
  obtain ⟨⟨y, h1, h2⟩, h3⟩ := ha
  refine ⟨⟨-y, Dbl.neg_val h1, h2.neg⟩, ?_⟩
  rw [abs_neg, neg_eq_zero]; exact h3

/-- Numbers of the same sign. -/
theorem add {n k : ℕ} {x z : ℝ} {a b : Dbl} (ha : SRel n k x a) (hb : SRel n k z b)
    (hs : 0 ≤ x * z) (hn : n ≤ 99) (hk : k + 1 ≤ 300) : SRel (n + 1) (k + 1) (x + z) (a + b) := by
  obtain ⟨⟨y, h1, h2⟩, h3⟩ := ha
  obtain ⟨⟨y', h1', h2'⟩, h3'⟩ := hb
  show SRel _ _ _ (Dbl.rnd (a.val + b.val))
  rw [h1, h1', XR.add_fin]
  refine rnd (h2.add h2' hs) ?_ hn hk
  rcases h3 with rfl | h3
  · rw [zero_add]; exact h3'.imp_right (·.mono (by omega))
  rcases h3' with rfl | h3'
  · rw [add_zero]; exact .inr (h3.mono (by omega))
  right
  have e : |x + z| = |x| + |z| := abs_add_eq_add_abs_iff x z |>.2 (by
    rcases le_total 0 x with hx | hx
    · rcases le_total 0 z with hz | hz
      · exact .inl ⟨hx, hz⟩
      · rcases eq_or_lt_of_le hx with h0 | h0
        · exact absurd h3.pos (by rw [← h0, abs_zero]; exact lt_irrefl _)
        · rcases eq_or_lt_of_le hz with h4 | h4
          · exact absurd h3'.pos (by rw [h4, abs_zero]; exact lt_irrefl _)
          · nlinarith [mul_neg_of_pos_of_neg h0 h4]
    · rcases le_total 0 z with hz | hz
      · rcases eq_or_lt_of_le hx with h0 | h0
        · exact absurd h3.pos (by rw [h0, abs_zero]; exact lt_irrefl _)
        · rcases eq_or_lt_of_le hz with h4 | h4
          · exact absurd h3'.pos (by rw [← h4, abs_zero]; exact lt_irrefl _)
          · nlinarith [mul_neg_of_neg_of_pos h0 h4]
      · exact .inr ⟨hx, hz⟩)
  rw [e]
  exact h3.add (abs_nonneg z) h3'.high

/-- Adding a zero does not round. -/
theorem zero_add {n k : ℕ} {x : ℝ} {a z : Dbl} (hz : z.val = .fin 0) (ha : SRel n k x a) :
    SRel n k x (z + a) := by
  have e : z + a = a := by
    show Dbl.rnd (z.val + a.val) = a
    obtain ⟨⟨y, h1, -⟩, -⟩ := ha
    rw [hz, h1, XR.add_fin, _root_.zero_add, ← h1, Dbl.rnd_val]
  rwa [e]

theorem add_zero {n k : ℕ} {x : ℝ} {a z : Dbl} (hz : z.val = .fin 0) (ha : SRel n k x a) :
    SRel n k x (a + z) := by
  have e : a + z = a := by
    show Dbl.rnd (a.val + z.val) = a
    obtain ⟨⟨y, h1, -⟩, -⟩ := ha
    rw [hz, h1, XR.add_fin, _root_.add_zero, ← h1, Dbl.rnd_val]
  rwa [e]

theorem zero_sub {n k : ℕ} {x : ℝ} {a z : Dbl} (hz : z.val = .fin 0) (ha : SRel n k x a) :
    SRel n k (-x) (z - a) := by
  have e : z - a = -a := by
    show Dbl.rnd (z.val - a.val) = Dbl.rnd (-a.val)
    obtain ⟨⟨y, h1, -⟩, -⟩ := ha
    rw [hz, h1, XR.sub_fin, _root_.zero_sub]; rfl
  rw [e]; exact ha.neg

theorem one_mul {n k : ℕ} {x : ℝ} {a o : Dbl} (ho : o.val = .fin 1) (ha : SRel n k x a) :
    SRel n k x (o * a) := by
  have e : o * a = a := by
    rw [Dbl.val_mul]
    obtain ⟨⟨y, h1, -⟩, -⟩ := ha
    rw [ho, h1, XR.mul_fin, _root_.one_mul, ← h1, Dbl.rnd_val]
  rwa [e]

/-- What the error amounts to. -/
theorem error {n k : ℕ} {x : ℝ} {a : Dbl} (ha : SRel n k x a) (hn : n ≤ 2 ^ 20) :
    ∃ y, a.val = .fin y ∧ |y - x| ≤ |x| * (n + 1) / 2 ^ 53 := by
  obtain ⟨⟨y, h1, h2⟩, -⟩ := ha
  exact ⟨y, h1, h2.abs_sub_le hn⟩

end SRel

end
end Disp
