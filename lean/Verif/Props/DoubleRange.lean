import Verif.Props.DoubleConversions
import Verif.Props.Interpolation
/-!
# C84: ranges and tables of decimal wavelengths in double precision
-/

namespace Disp

open Spec

/-! ## Tables in every arithmetic -/

section generic
variable {F : Type} [PyFloat F] [LawfulCmp F]

/-- The error of a range check. -/
def rangeError (unit : String) : PyErr := if unit = "cm" then .key else .value

theorem contains_iff (self other : Spectrum F) (ov : Vals F)
    (hself : self.values.toList ≠ []) (hov : other.convertTo self.stype self.unit = .ok ov)
    (hne : ov.toList ≠ []) (hn1 : NoNaN self.values.toList) (hn2 : NoNaN ov.toList)
    (hu : self.unit ∈ pairs.map (·.2)) :
    (Within self.values.toList ov.toList → self.contains other = .ok true) ∧
    (¬ Within self.values.toList ov.toList →
      self.contains other = .error (rangeError self.unit)) := by
  by_cases hcm : self.unit = "cm"
  · refine ⟨fun h => ?_, fun h => ?_⟩
    · rw [contains_spec self other ov hself hov hne hn1 hn2, if_neg ((within_iff hself hn1 hn2).1 h)]
    · rw [C10_cm_key_error self other ov hself hov hne hn1 hn2 hcm h, rangeError, if_pos hcm]
  · have := C10_contains_partial self other ov hself hov hne hn1 hn2 hu hcm
    rwa [rangeError, if_neg hcm]

/-- A table is evaluated exactly at the converted values between its smallest and its largest
abscissa, in every arithmetic. -/
theorem table_evaluate [SciPy F] (rows : List (F × F)) (t u c : String)
    (hc : (lower t, u, c) ∈ names) (order : ℕ) (d : RealData F)
    (hd : RealData.newInterp .float rows t u order = .ok d) (hnx : NoNaN (rows.map (·.1)))
    (s : Spectrum F) (ov : Vals F) (hov : s.convertTo t u = .ok ov) (hne : ov.toList ≠ [])
    (hnn : NoNaN ov.toList) :
    (Within (rows.map (·.1)) ov.toList →
      (d.evaluate s).1 = ov.mapRes (interpAt order rows)) ∧
    (¬ Within (rows.map (·.1)) ov.toList → (d.evaluate s).1 = .error (rangeError c)) := by
  obtain ⟨lo, hi, r, h1, h2, h3, h4, h5, rfl⟩ := newInterp_ok hd
  obtain ⟨a1, a2, a3⟩ := C01_stored _ _ _ _ h3
  have hrv : r.values = .array .float [lo, hi] := (Except.ok.inj a3).symm
  have hl : lower u = u := (names_lower _ hc).2
  have hru : r.unit = c := by
    rw [hl] at a2
    exact names_functional _ a2 _ hc rfl rfl
  have hconv : s.convertTo r.stype r.unit = .ok ov := by
    rw [← hov, Spectrum.convertTo_eq, Spectrum.convertTo_eq, a1, hru,
      specLookup_ok_iff.2 hc]
    have hl : lower (lower t) = lower t := (names_lower _ hc).1
    rw [hl, specLookup_ok_iff.2 (pairs_names _ (names_pairs _ hc))]
  have hxne : (Vals.array DType.float (rows.map Prod.fst)).toList ≠ [] := by
    intro h
    have : rows = [] := by simpa [Vals.toList] using h
    rw [this] at h4; simp at h4
  obtain ⟨m, m1, m2, m3⟩ := npMin_spec _ hxne hnx
  obtain ⟨m', m1', m2', m3'⟩ := npMax_spec _ hxne hnx
  have em : m = lo := Except.ok.inj (m1.symm.trans h1)
  have em' : m' = hi := Except.ok.inj (m1'.symm.trans h2)
  subst em em'
  have hrn : NoNaN r.values.toList := by
    rw [hrv]
    intro z hz
    simp only [Vals.toList, List.mem_cons, List.not_mem_nil, or_false] at hz
    rcases hz with rfl | rfl
    · exact hnx _ m2
    · exact hnx _ m2'
  have hr0 : r.values.toList ≠ [] := by rw [hrv]; simp [Vals.toList]
  have hw : Within r.values.toList ov.toList ↔ Within (rows.map (·.1)) ov.toList := by
    rw [hrv]
    constructor
    · intro h y hy
      obtain ⟨⟨a, ha, hay⟩, ⟨b, hb, hyb⟩⟩ := h y hy
      simp only [Vals.toList, List.mem_cons, List.not_mem_nil, or_false] at ha hb
      refine ⟨⟨a, ?_, hay⟩, ⟨b, ?_, hyb⟩⟩
      · rcases ha with rfl | rfl
        · exact m2
        · exact m2'
      · rcases hb with rfl | rfl
        · exact m2
        · exact m2'
    · intro h y hy
      obtain ⟨⟨a, ha, hay⟩, ⟨b, hb, hyb⟩⟩ := h y hy
      have ny := hnn y hy
      refine ⟨⟨m, by simp [Vals.toList], ?_⟩, ⟨m', by simp [Vals.toList], ?_⟩⟩
      · rw [LawfulCmp.le_eq_not_lt _ _ (hnx _ m2) ny]
        rw [LawfulCmp.le_eq_not_lt _ _ (hnx _ ha) ny] at hay
        by_contra hlt
        have hlt : PyFloat.lt y m = true := by simpa using hlt
        rcases LawfulCmp.lt_cotrans y a m (hnx _ ha) hlt with h' | h'
        · rw [h'] at hay; cases hay
        · rw [m3 a ha] at h'; cases h'
      · rw [LawfulCmp.le_eq_not_lt _ _ ny (hnx _ m2')]
        rw [LawfulCmp.le_eq_not_lt _ _ ny (hnx _ hb)] at hyb
        by_contra hlt
        have hlt : PyFloat.lt m' y = true := by simpa using hlt
        rcases LawfulCmp.lt_cotrans m' b y (hnx _ hb) hlt with h' | h'
        · rw [m3' b hb] at h'; cases h'
        · rw [h'] at hyb; cases hyb
  have hup : r.unit ∈ pairs.map (·.2) := by
    rw [hru]; exact List.mem_map.2 ⟨_, names_pairs _ hc, rfl⟩
  obtain ⟨k1, k2⟩ := contains_iff r s ov hr0 hconv hne hrn hnn hup
  rw [hw] at k1 k2
  refine ⟨fun h => ?_, fun h => ?_⟩
  · simp only [RealData.evaluate, bind, Except.bind, k1 h, hov]
  · simp only [RealData.evaluate, bind, Except.bind, k2 h, hru]

/-- Linear interpolation succeeds between the smallest and the largest abscissa. -/
theorem interpLinear_within (rows : List (F × F)) (hnx : NoNaN (rows.map (·.1))) (v : F)
    (hv : PyFloat.isNaN v = false) (hw : Within (rows.map (·.1)) [v]) :
    ∃ y, interpLinear rows v = .ok y := by
  obtain ⟨⟨a, ha, hav⟩, ⟨b, hb, hvb⟩⟩ := hw v (by simp)
  have hs := sortRows_sorted rows hnx
  have hp := sortRows_perm rows
  have hmem : ∀ x, x ∈ rows.map (·.1) ↔ x ∈ (sortRows rows).map (·.1) := fun x =>
    (hp.map (·.1)).mem_iff.symm
  have hnx' : NoNaN ((sortRows rows).map (·.1)) := fun x hx => hnx x ((hmem x).2 hx)
  rw [hmem] at ha hb
  unfold interpLinear
  cases hr : sortRows rows with
  | nil => rw [hr] at ha; cases ha
  | cons f rest =>
    rw [hr] at ha hb hs hnx'
    have n1 : PyFloat.isNaN f.1 = false := hnx' _ (by simp)
    have h1 : PyFloat.lt v f.1 = false := by
      by_contra hc
      have hc : PyFloat.lt v f.1 = true := by simpa using hc
      rw [LawfulCmp.le_eq_not_lt _ _ (hnx' a ha) hv] at hav
      rcases LawfulCmp.lt_cotrans v a f.1 (hnx' a ha) hc with h | h
      · rw [h] at hav; cases hav
      · obtain ⟨p, hp, rfl⟩ := List.mem_map.1 ha
        rcases List.mem_cons.1 hp with rfl | hp
        · rw [LawfulCmp.lt_irrefl] at h; cases h
        · have := (List.pairwise_cons.1 hs).1 p hp
          rw [this] at h; cases h
    have h2 : PyFloat.lt ((rest.getLast?).getD f).1 v = false := by
      by_contra hc
      have hc : PyFloat.lt ((rest.getLast?).getD f).1 v = true := by simpa using hc
      rw [LawfulCmp.le_eq_not_lt _ _ hv (hnx' b hb)] at hvb
      rcases LawfulCmp.lt_cotrans _ b v (hnx' b hb) hc with h | h
      · obtain ⟨p, hp, rfl⟩ := List.mem_map.1 hb
        have hlast : (rest.getLast?).getD f = (f :: rest).getLast (by simp) := by
          cases rest with
          | nil => rfl
          | cons g rest => simp [List.getLast?_eq_getLast_of_ne_nil]
        rw [hlast] at h
        have hsplit := List.dropLast_append_getLast (l := f :: rest) (by simp)
        rw [← hsplit] at hp hs
        rcases List.mem_append.1 hp with hp | hp
        · have := (List.pairwise_append.1 hs).2.2 p hp _ (List.mem_singleton.2 rfl)
          rw [this] at h; cases h
        · rw [List.mem_singleton] at hp
          rw [hp, LawfulCmp.lt_irrefl] at h; cases h
      · rw [h] at hvb; cases hvb
    simp only [h1, h2, Bool.or_self, Bool.false_eq_true, if_false]
    exact ⟨_, rfl⟩

end generic

noncomputable section

/-! ## Comparison of decimals -/

theorem dec_val {m d : ℕ} (hm : 0 < m) (hs : 10 * m + 5 < 2 ^ 53) (hd : d ≤ 13) :
    ∃ y, (dec m d).val = .fin y ∧ Near 1 ((m : ℝ) / 10 ^ d) y := by
  have hmag : Mag 60 ((m : ℝ) / 10 ^ d) := by
    have hm' : Mag 16 (m : ℝ) := by
      have h1 : (1 : ℝ) ≤ m := by exact_mod_cast hm
      have h2 : (m : ℝ) ≤ 10 ^ 16 := by
        have : m ≤ 10 ^ 16 := by omega
        exact_mod_cast this
      exact ⟨le_trans (by norm_num) h1, h2⟩
    exact (hm'.div (mag_ten d)).mono (by omega)
  have := (Approx.lit (q := (m : ℚ) / 10 ^ d) (k := 60) (by push_cast; exact hmag)
    (by norm_num)).near
  push_cast at this
  exact this

/-- Different decimals are different doubles, in the same order. -/
theorem dec_lt {m n d : ℕ} (hm : 0 < m) (hs : 10 * n + 5 < 2 ^ 53) (hd : d ≤ 13) (h : m < n) :
    PyFloat.lt (dec m d) (dec n d) = true := by
  obtain ⟨y, h1, h2⟩ := dec_val hm (by omega) hd
  obtain ⟨z, h3, h4⟩ := dec_val (show 0 < n by omega) hs hd
  show PyFloat.lt (dec m d).val (dec n d).val = true
  rw [h1, h3]
  have hP : (0 : ℝ) < 10 ^ d := by positivity
  have e1 := (abs_le.1 (h2.abs_sub_le (by norm_num))).2
  have e2 := (abs_le.1 (h4.abs_sub_le (by norm_num))).1
  have hmn : (m : ℝ) + 1 ≤ n := by exact_mod_cast h
  have hn : 10 * (n : ℝ) + 5 < 2 ^ 53 := by exact_mod_cast hs
  have g1 : (m : ℝ) / 10 ^ d + 1 / 10 ^ d ≤ n / 10 ^ d := by rw [← add_div]; gcongr
  have g2 : (n : ℝ) / 10 ^ d * 4 / 2 ^ 53 < 1 / 10 ^ d := by
    rw [div_mul_eq_mul_div, div_div, mul_comm ((10 : ℝ) ^ d), ← div_div,
      div_lt_div_iff_of_pos_right hP, div_lt_one (by positivity)]
    linarith
  have g3 : (m : ℝ) / 10 ^ d * 2 / 2 ^ 53 ≤ n / 10 ^ d * 2 / 2 ^ 53 := by
    gcongr
  have : y < z := by
    rw [one_div] at g1
    norm_num at e1 e2 g2 g3
    linarith
  simpa using this

theorem dec_noNaN {m d : ℕ} (hm : 0 < m) (hs : 10 * m + 5 < 2 ^ 53) (hd : d ≤ 13) :
    PyFloat.isNaN (dec m d) = false := by
  obtain ⟨y, h1, h2⟩ := dec_val hm hs hd
  show PyFloat.isNaN (dec m d).val = false
  rw [h1]; rfl

theorem dec_le_iff {m n d : ℕ} (hm : 0 < m) (hn : 0 < n) (hsm : 10 * m + 5 < 2 ^ 53)
    (hsn : 10 * n + 5 < 2 ^ 53) (hd : d ≤ 13) :
    PyFloat.le (dec m d) (dec n d) = true ↔ m ≤ n := by
  rw [LawfulCmp.le_eq_not_lt _ _ (dec_noNaN hm hsm hd) (dec_noNaN hn hsn hd)]
  constructor
  · intro h
    by_contra hc
    rw [dec_lt hn hsm hd (by omega)] at h
    cases h
  · intro h
    rcases Nat.lt_or_eq_of_le h with h | rfl
    · by_contra hc
      have h1 : PyFloat.lt (dec n d) (dec m d) = true := by simpa using hc
      have := LawfulCmp.lt_trans _ _ _ h1 (dec_lt hm hsn hd h)
      rw [LawfulCmp.lt_irrefl] at this
      cases this
    · rw [LawfulCmp.lt_irrefl]; rfl

/-- Decimals for which conversions are exact. -/
def Good (m : ℕ) : Prop := 0 < m ∧ 10 * m + 5 < 2 ^ 53

/-- On paper: every requested decimal lies between two decimals of the range. -/
def Between (ms ns : List ℕ) : Prop := ∀ n ∈ ns, (∃ lo ∈ ms, lo ≤ n) ∧ ∃ hi ∈ ms, n ≤ hi

theorem within_dec {ms ns : List ℕ} {d : ℕ} (hd : d ≤ 13) (hms : ∀ m ∈ ms, Good m)
    (hns : ∀ n ∈ ns, Good n) :
    Within (ms.map (dec · d)) (ns.map (dec · d)) ↔ Between ms ns := by
  constructor
  · intro h n hn
    obtain ⟨⟨a, ha, h1⟩, ⟨b, hb, h2⟩⟩ := h _ (List.mem_map.2 ⟨n, hn, rfl⟩)
    obtain ⟨m, hm, rfl⟩ := List.mem_map.1 ha
    obtain ⟨m', hm', rfl⟩ := List.mem_map.1 hb
    exact ⟨⟨m, hm, (dec_le_iff (hms m hm).1 (hns n hn).1 (hms m hm).2 (hns n hn).2 hd).1 h1⟩,
      ⟨m', hm', (dec_le_iff (hns n hn).1 (hms m' hm').1 (hns n hn).2 (hms m' hm').2 hd).1 h2⟩⟩
  · intro h y hy
    obtain ⟨n, hn, rfl⟩ := List.mem_map.1 hy
    obtain ⟨⟨m, hm, h1⟩, ⟨m', hm', h2⟩⟩ := h n hn
    exact ⟨⟨_, List.mem_map.2 ⟨m, hm, rfl⟩,
        (dec_le_iff (hms m hm).1 (hns n hn).1 (hms m hm).2 (hns n hn).2 hd).2 h1⟩,
      ⟨_, List.mem_map.2 ⟨m', hm', rfl⟩,
        (dec_le_iff (hns n hn).1 (hms m' hm').1 (hns n hn).2 (hms m' hm').2 hd).2 h2⟩⟩

theorem noNaN_dec {ms : List ℕ} {d : ℕ} (hd : d ≤ 13) (hms : ∀ m ∈ ms, Good m) :
    NoNaN (ms.map (dec · d)) := by
  intro y hy
  obtain ⟨m, hm, rfl⟩ := List.mem_map.1 hy
  exact dec_noNaN (hms m hm).1 (hms m hm).2 hd

/-! ## C84 -/

/-- The requests: decimals `q` of a length unit that are the decimals `n / 10^d` of the unit of the
range. -/
def Requests (c c' : String) (d : ℕ) (l : List (ℚ × ℕ)) : Prop :=
  ∀ p ∈ l, Good p.2 ∧ ofMetres "wavelength" c' (metres "wavelength" c p.1) = p.2 / 10 ^ d

theorem convert_requests {t u c t' u' c' : String} (hc : (lower t, lower u, c) ∈ names)
    (hc' : (lower t', u', c') ∈ names) (ht : lower t = "wavelength") (ht' : lower t' = "wavelength")
    {d : ℕ} (hd : decimals "wavelength" c' = some d) {l : List (ℚ × ℕ)} (hl : Requests c c' d l)
    {s : Spectrum Dbl} (hs : Spectrum.new (.list .float (l.map (fun p => lit p.1))) t u = .ok s) :
    s.convertTo t' u' = .ok (.array .float (l.map (fun p => dec p.2 d))) := by
  have := C83_length_arrays t u c t' u' c' hc hc' ht ht' d hd l
    (fun p hp => ⟨(hl p hp).1.1, (hl p hp).1.2, (hl p hp).2⟩)
  unfold convertList at this
  rw [hs] at this
  exact this

/-- C84, ranges: whether decimal wavelengths lie within a range of decimal wavelengths, possibly
in another length unit, is decided in double precision as on paper. -/
theorem C84_range (t u c t' u' c' : String) (hc : (lower t, lower u, c) ∈ names)
    (hc' : (lower t', lower u', c') ∈ names) (ht : lower t = "wavelength")
    (ht' : lower t' = "wavelength") (d : ℕ) (hd : decimals "wavelength" c' = some d)
    (l : List (ℚ × ℕ)) (hne : l ≠ []) (hl : Requests c c' d l)
    (ms : List ℕ) (hms : ∀ m ∈ ms, Good m) (hmne : ms ≠ [])
    (r s : Spectrum Dbl) (hr : Spectrum.new (.list .float (ms.map (dec · d))) t' u' = .ok r)
    (hs : Spectrum.new (.list .float (l.map (fun p => lit p.1))) t u = .ok s) :
    (Between ms (l.map (·.2)) → r.contains s = .ok true) ∧
    (¬ Between ms (l.map (·.2)) → r.contains s = .error (rangeError c')) := by
  have hd' := decimals_le hd
  rw [new_list hc', Except.ok.injEq] at hr
  have hrv : r.values = .array .float (ms.map (dec · d)) := by rw [← hr]
  have hrt : r.stype = lower t' := by rw [← hr]
  have hru : r.unit = c' := by rw [← hr]
  have hl' : lower (lower t') = lower t' := (names_lower _ hc').1
  have hconv : s.convertTo r.stype r.unit = .ok (.array .float ((l.map (·.2)).map (dec · d))) := by
    rw [hrt, hru, List.map_map]
    exact convert_requests hc (t' := lower t') (u' := c') (c' := c')
      (by rw [hl']; exact pairs_names _ (names_pairs _ hc')) ht (by rw [hl', ht']) hd hl hs
  have hgood : ∀ n ∈ l.map (·.2), Good n := by
    intro n hn
    obtain ⟨p, hp, rfl⟩ := List.mem_map.1 hn
    exact (hl p hp).1
  have key := contains_iff r s _ (by rw [hrv]; simpa [Vals.toList] using hmne) hconv
    (by simpa [Vals.toList] using hne) (by rw [hrv]; exact noNaN_dec hd' hms)
    (noNaN_dec hd' hgood) (by rw [hru]; exact List.mem_map.2 ⟨_, names_pairs _ hc', rfl⟩)
  have hw := within_dec hd' hms hgood
  rw [hrv, hru] at key
  exact ⟨fun h => key.1 (hw.2 h), fun h => key.2 (fun h' => h (hw.1 h'))⟩

/-- C84, tables: a table over decimal wavelengths can be evaluated in double precision at decimal
wavelengths (of any length unit) exactly if they lie between its ends; the interpolation function is
then called with the very doubles that the decimals of the table's unit denote. In particular it can be
evaluated at every wavelength it lists. -/
theorem C84_table [SciPy Dbl] (t u c t' u' c' : String) (hc : (lower t, lower u, c) ∈ names)
    (hc' : (lower t', u', c') ∈ names) (ht : lower t = "wavelength")
    (ht' : lower t' = "wavelength") (d : ℕ) (hd : decimals "wavelength" c' = some d)
    (l : List (ℚ × ℕ)) (hne : l ≠ []) (hl : Requests c c' d l)
    (rows : List (ℕ × Dbl)) (hrows : ∀ p ∈ rows, Good p.1) (order : ℕ) (data : RealData Dbl)
    (hdata : RealData.newInterp .float (rows.map (fun p => (dec p.1 d, p.2))) t' u' order = .ok data)
    (s : Spectrum Dbl) (hs : Spectrum.new (.list .float (l.map (fun p => lit p.1))) t u = .ok s) :
    (Between (rows.map (·.1)) (l.map (·.2)) → (data.evaluate s).1 =
      (Vals.array .float ((l.map (·.2)).map (dec · d))).mapRes
        (interpAt order (rows.map (fun p => (dec p.1 d, p.2))))) ∧
    (¬ Between (rows.map (·.1)) (l.map (·.2)) →
      (data.evaluate s).1 = .error (rangeError c')) := by
  have hd' := decimals_le hd
  have hgood : ∀ n ∈ l.map (·.2), Good n := by
    intro n hn
    obtain ⟨p, hp, rfl⟩ := List.mem_map.1 hn
    exact (hl p hp).1
  have hms : ∀ m ∈ rows.map (·.1), Good m := by
    intro n hn
    obtain ⟨p, hp, rfl⟩ := List.mem_map.1 hn
    exact hrows p hp
  have hx : (rows.map (fun p => (dec p.1 d, p.2))).map (·.1) = (rows.map (·.1)).map (dec · d) := by
    rw [List.map_map, List.map_map]; rfl
  have hconv : s.convertTo t' u' = .ok (.array .float ((l.map (·.2)).map (dec · d))) := by
    rw [List.map_map]
    exact convert_requests hc hc' ht ht' hd hl hs
  have key := table_evaluate _ t' u' c' hc' order data hdata (by rw [hx]; exact noNaN_dec hd' hms) s _
    hconv (by simpa [Vals.toList] using hne) (noNaN_dec hd' hgood)
  rw [hx] at key
  have hw := within_dec hd' hms hgood
  exact ⟨fun h => key.1 (hw.2 h), fun h => key.2 (fun h' => h (hw.1 h'))⟩

/-! ## Decimals for which it fails -/

/-- Rounding by hand. -/
theorem Dbl.rnd_hand {x : ℝ} (m e : ℤ) (he : -1074 ≤ e) (he' : e ≤ 900) (hm : |m| ≤ 2 ^ 53)
    (h1 : (2 : ℝ) ^ (e + 52) ≤ x) (h2 : x < 2 ^ (e + 53)) (h3 : |x / 2 ^ e - m| < 1 / 2) :
    (Dbl.rnd (.fin x)).val = .fin (m * 2 ^ e) := by
  have hn := nearest_eq m e he h1 h2 h3
  rw [← hn]
  refine Dbl.rnd_fin ?_
  rw [hn, abs_mul, abs_of_pos (two_zpow_pos e)]
  have a1 : |(m : ℝ)| ≤ 2 ^ 53 := by exact_mod_cast hm
  have a2 : (2 : ℝ) ^ e ≤ 2 ^ (900 : ℤ) := zpow_le_zpow_right₀ (by norm_num) he'
  calc |(m : ℝ)| * 2 ^ e ≤ 2 ^ 53 * 2 ^ (900 : ℤ) :=
        mul_le_mul a1 a2 (two_zpow_pos e).le (by positivity)
    _ = 2 ^ 953 := by
      rw [show ((2 : ℝ) ^ (900 : ℤ)) = 2 ^ (900 : ℕ) from zpow_natCast 2 900, ← pow_add]
    _ < 2 ^ 1024 := pow_lt_pow_right₀ (by norm_num) (by norm_num)

theorem Dbl.mul_hand {a b : Dbl} {x y : ℝ} (ha : a.val = .fin x) (hb : b.val = .fin y) (m e : ℤ)
    (he : -1074 ≤ e) (he' : e ≤ 900) (hm : |m| ≤ 2 ^ 53)
    (h1 : (2 : ℝ) ^ (e + 52) ≤ x * y) (h2 : x * y < 2 ^ (e + 53))
    (h3 : |x * y / 2 ^ e - m| < 1 / 2) : (a * b).val = .fin (m * 2 ^ e) := by
  rw [Dbl.val_mul, ha, hb, XR.mul_fin]
  exact Dbl.rnd_hand m e he he' hm h1 h2 h3

theorem Dbl.div_hand {a b : Dbl} {x y : ℝ} (ha : a.val = .fin x) (hb : b.val = .fin y) (hy : y ≠ 0)
    (m e : ℤ) (he : -1074 ≤ e) (he' : e ≤ 900) (hm : |m| ≤ 2 ^ 53)
    (h1 : (2 : ℝ) ^ (e + 52) ≤ x / y) (h2 : x / y < 2 ^ (e + 53))
    (h3 : |x / y / 2 ^ e - m| < 1 / 2) : (a / b).val = .fin (m * 2 ^ e) := by
  rw [Dbl.val_div, ha, hb, XR.div_fin_of_ne _ hy]
  exact Dbl.rnd_hand m e he he' hm h1 h2 h3

/-- 4100 nm become 4100.000000000001 nm. -/
theorem nm_4100 {inv : Dbl → Dbl} :
    (toElem inv "wavelength" "nm" (fromElem inv "wavelength" "nm" (lit 4100))).val =
      .fin (4507997673881601 * 2 ^ (-40 : ℤ)) := by
  simp only [toElem, fromElem, String.reduceEq, if_true, if_false]
  have v0 : (lit 4100 : Dbl).val = .fin 4100 := by
    exact_mod_cast Dbl.lit_int (n := 4100) (by norm_num)
  have v1 : (lit 1e-9 : Dbl).val = .fin ((4835703278458517 : ℤ) * 2 ^ (-82 : ℤ)) := by
    rw [Dbl.val_lit]
    apply Dbl.rnd_hand <;> norm_num [abs_lt]
  have v2 := Dbl.mul_hand v0 v1 4840425644941387 (-70) (by norm_num) (by norm_num) (by norm_num)
    (by norm_num) (by norm_num) (by norm_num [abs_lt])
  have v3 : (lit 1e9 : Dbl).val = .fin (10 ^ 9) := by
    have := ten_val (d := 9) (by norm_num)
    have e : (lit 1e9 : Dbl) = Dbl.ofRat (10 ^ 9) := by
      show Dbl.ofRat 1e9 = _
      norm_num
    rw [e]; exact this
  have v4 := Dbl.mul_hand v2 v3 4507997673881601 (-40) (by norm_num) (by norm_num) (by norm_num)
    (by norm_num) (by norm_num) (by norm_num [abs_lt])
  have v5 := ten_val (d := 12) (by norm_num)
  have v6 := Dbl.mul_hand v4 v5 8200000000000002 (-1) (by norm_num) (by norm_num) (by norm_num)
    (by norm_num) (by norm_num) (by norm_num [abs_lt])
  have v7 := Dbl.rint_val v6
  rw [rint_eq_of_near 4100000000000001 (by norm_num)] at v7
  have v8 := Dbl.div_hand v7 v5 (by norm_num) 4507997673881601 (-40) (by norm_num) (by norm_num)
    (by norm_num) (by norm_num) (by norm_num) (by norm_num [abs_lt])
  exact_mod_cast v8

/-- C84, linear tables: a table over decimal wavelengths can be evaluated at all decimal wavelengths
between its ends, in particular at those it lists. -/
theorem C84_linear [SciPy Dbl] (t u c t' u' c' : String) (hc : (lower t, lower u, c) ∈ names)
    (hc' : (lower t', u', c') ∈ names) (ht : lower t = "wavelength")
    (ht' : lower t' = "wavelength") (d : ℕ) (hd : decimals "wavelength" c' = some d)
    (l : List (ℚ × ℕ)) (hne : l ≠ []) (hl : Requests c c' d l)
    (rows : List (ℕ × Dbl)) (hrows : ∀ p ∈ rows, Good p.1) (data : RealData Dbl)
    (hdata : RealData.newInterp .float (rows.map (fun p => (dec p.1 d, p.2))) t' u' 1 = .ok data)
    (s : Spectrum Dbl) (hs : Spectrum.new (.list .float (l.map (fun p => lit p.1))) t u = .ok s) :
    (∃ v, (data.evaluate s).1 = .ok v) ↔ Between (rows.map (·.1)) (l.map (·.2)) := by
  have hd' := decimals_le hd
  obtain ⟨k1, k2⟩ := C84_table t u c t' u' c' hc hc' ht ht' d hd l hne hl rows hrows 1 data hdata s hs
  constructor
  · rintro ⟨v, hv⟩
    by_contra hb
    rw [k2 hb] at hv
    cases hv
  · intro hb
    rw [k1 hb]
    have hgood : ∀ n ∈ l.map (·.2), Good n := by
      intro n hn
      obtain ⟨p, hp, rfl⟩ := List.mem_map.1 hn
      exact (hl p hp).1
    have hms : ∀ m ∈ rows.map (·.1), Good m := by
      intro n hn
      obtain ⟨p, hp, rfl⟩ := List.mem_map.1 hn
      exact hrows p hp
    have hx : (rows.map (fun p => (dec p.1 d, p.2))).map (·.1) =
        (rows.map (·.1)).map (dec · d) := by
      rw [List.map_map, List.map_map]; rfl
    have hat : ∀ n ∈ l.map (·.2), ∃ y,
        interpAt 1 (rows.map (fun p => (dec p.1 d, p.2))) (dec n d) = .ok y := by
      intro n hn
      have hw : Within ((rows.map (fun p => (dec p.1 d, p.2))).map (·.1)) [dec n d] := by
        rw [hx]
        exact (within_dec (ns := [n]) hd' hms (by simpa using hgood n hn)).2 (by
          intro k hk
          rw [List.mem_singleton] at hk
          subst hk
          exact hb k hn)
      obtain ⟨y, hy⟩ := interpLinear_within _ (by rw [hx]; exact noNaN_dec hd' hms) _
        (dec_noNaN (hgood n hn).1 (hgood n hn).2 hd') hw
      exact ⟨y, by simpa [interpAt] using hy⟩
    generalize l.map (·.2) = ns at hat
    have : ∃ ys, (ns.map (dec · d)).mapM
        (interpAt 1 (rows.map (fun p => (dec p.1 d, p.2)))) = .ok ys := by
      induction ns with
      | nil => exact ⟨[], rfl⟩
      | cons z zs ih =>
        obtain ⟨y, hy⟩ := hat z (by simp)
        obtain ⟨ys, hys⟩ := ih (fun z hz => hat z (by simp [hz]))
        exact ⟨y :: ys, by rw [List.map_cons, List.mapM_cons, hy, hys]; rfl⟩
    obtain ⟨ys, hys⟩ := this
    exact ⟨.array .float ys, by simp only [Vals.mapRes, hys, bind, Except.bind]⟩

/-- C84, single wavelengths: the same for a table evaluated at one decimal wavelength. -/
theorem C84_scalar [SciPy Dbl] (t u c t' u' c' : String) (hc : (lower t, lower u, c) ∈ names)
    (hc' : (lower t', u', c') ∈ names) (ht : lower t = "wavelength")
    (ht' : lower t' = "wavelength") (d : ℕ) (hd : decimals "wavelength" c' = some d)
    (q : ℚ) (n : ℕ) (hl : Requests c c' d [(q, n)])
    (rows : List (ℕ × Dbl)) (hrows : ∀ p ∈ rows, Good p.1) (order : ℕ) (data : RealData Dbl)
    (hdata : RealData.newInterp .float (rows.map (fun p => (dec p.1 d, p.2))) t' u' order = .ok data)
    (s : Spectrum Dbl) (hs : Spectrum.new (.float (lit q)) t u = .ok s) :
    (Between (rows.map (·.1)) [n] → (data.evaluate s).1 =
      (Vals.scalar (dec n d)).mapRes (interpAt order (rows.map (fun p => (dec p.1 d, p.2))))) ∧
    (¬ Between (rows.map (·.1)) [n] → (data.evaluate s).1 = .error (rangeError c')) := by
  have hd' := decimals_le hd
  obtain ⟨hg, hq⟩ := hl (q, n) (by simp)
  have hms : ∀ m ∈ rows.map (·.1), Good m := by
    intro n hn
    obtain ⟨p, hp, rfl⟩ := List.mem_map.1 hn
    exact hrows p hp
  have hx : (rows.map (fun p => (dec p.1 d, p.2))).map (·.1) = (rows.map (·.1)).map (dec · d) := by
    rw [List.map_map, List.map_map]; rfl
  have hconv : s.convertTo t' u' = .ok (.scalar (dec n d)) := by
    rw [new_scalar hc, Except.ok.injEq] at hs
    subst hs
    rw [Spectrum.convertTo_eq, specLookup_ok_iff.2 hc']
    simp only
    rw [convertVals_scalar (names_pairs _ hc'), ht, ht',
      elem_decimal (ht ▸ names_pairs _ hc) (ht' ▸ names_pairs _ hc') q n d hd hg.1 hq hg.2]
  have hgood : ∀ k ∈ [n], Good k := by simpa using hg
  have key := table_evaluate _ t' u' c' hc' order data hdata (by rw [hx]; exact noNaN_dec hd' hms) s _
    hconv (by simp [Vals.toList]) (noNaN_dec (ms := [n]) hd' hgood)
  rw [hx] at key
  have hw := within_dec (ns := [n]) hd' hms hgood
  exact ⟨fun h => key.1 (hw.2 h), fun h => key.2 (fun h' => h (hw.1 h'))⟩

/-- 0.4 µm, 0.633 µm and 0.8 µm are requests for a table from 400 nm to 800 nm. -/
example : Requests "um" "nm" 12 [(0.4, 400000000000000), (0.633, 633000000000000),
      (0.8, 800000000000000)] ∧ Good 400000000000000 ∧ Good 800000000000000 ∧
    Between [800000000000000, 400000000000000] [400000000000000, 633000000000000, 800000000000000] := by
  refine ⟨?_, ⟨by norm_num, by norm_num⟩, ⟨by norm_num, by norm_num⟩, ?_⟩
  · intro p hp
    simp only [List.mem_cons, List.not_mem_nil, or_false] at hp
    rcases hp with rfl | rfl | rfl <;>
    refine ⟨⟨by norm_num, by norm_num⟩, ?_⟩ <;>
    simp [ofMetres, metres, lengthUnit] <;> norm_num
  · intro n hn
    simp only [List.mem_cons, List.not_mem_nil, or_false] at hn
    rcases hn with rfl | rfl | rfl <;> simp

/-! ## C86: what fails in double precision -/

/-- C86 (full statement, refuted below): a linear table can be evaluated in double precision at
every value that it lists, if these are decimals that conversions keep. -/
def C86_statement [SciPy Dbl] : Prop :=
  ∀ (t u c : String), (lower t, u, c) ∈ names → lower t ≠ "wavenumber" →
    ∀ (rows : List (ℕ × Dbl)) (d : ℕ), (∀ e, decimals (lower t) c = some e → d ≤ e) →
    (∀ p ∈ rows, 0 < p.1) → ∀ data : RealData Dbl,
    RealData.newInterp .float (rows.map (fun p => (dec p.1 d, p.2))) t u 1 = .ok data →
    ∀ p ∈ rows, ∀ s, Spectrum.new (.float (dec p.1 d)) t u = .ok s →
      ∃ v, (data.evaluate s).1 = .ok v

/-- Two rows and a value that its conversion to the table's unit moves out of the range. -/
theorem end_fails [SciPy Dbl] (t u c : String) (hc : (lower t, u, c) ∈ names) (a b y z w : Dbl)
    (xa xb xb' : ℝ) (ha : a.val = .fin xa) (hb : b.val = .fin xb) (hab : xa < xb)
    (hconv : (toElem safeInverseScalar (lower t) c (fromElem safeInverseScalar (lower t) c w)).val =
      .fin xb') (hout : xb < xb' ∨ xb' < xa) :
    ∃ data s, RealData.newInterp .float [(a, y), (b, z)] t u 1 = .ok data ∧
      Spectrum.new (.float w) t u = .ok s ∧
      (data.evaluate s).1 = .error (rangeError c) := by
  have hl : lower u = u := (names_lower _ hc).2
  have hc2 : (lower t, lower u, c) ∈ names := by rw [hl]; exact hc
  have lab : PyFloat.lt a b = true := by
    show PyFloat.lt a.val b.val = true
    rw [ha, hb]; simpa using hab
  have lba : PyFloat.lt b a = false := by
    show PyFloat.lt b.val a.val = false
    rw [ha, hb]; simpa using hab.le
  have na : PyFloat.isNaN a = false := by
    show PyFloat.isNaN a.val = false
    rw [ha]; rfl
  have nb : PyFloat.isNaN b = false := by
    show PyFloat.isNaN b.val = false
    rw [hb]; rfl
  have hnn : NoNaN [a, b] := by
    intro x hx
    simp only [List.mem_cons, List.not_mem_nil, or_false] at hx
    rcases hx with rfl | rfl
    · exact na
    · exact nb
  obtain ⟨lo, h1, -, -⟩ := npMin_spec (.array .float [a, b]) (by simp [Vals.toList]) hnn
  obtain ⟨hi, h2, -, -⟩ := npMax_spec (.array .float [a, b]) (by simp [Vals.toList]) hnn
  have hinit : interpInit 1 [(a, y), (b, z)] = .ok () := by
    have hs : sortRows [(a, y), (b, z)] = [(a, y), (b, z)] := by
      simp [sortRows, insertRow, lab]
    unfold interpInit
    rw [hs]
    simp [noDuplicates, lab]
  have hnew : ∃ data, RealData.newInterp .float [(a, y), (b, z)] t u 1 = .ok data := by
    unfold RealData.newInterp
    simp only [List.map_cons, List.map_nil, h1, h2, bind, Except.bind, new_list hc2, hinit]
    exact ⟨_, rfl⟩
  obtain ⟨data, hdata⟩ := hnew
  refine ⟨data, _, hdata, new_scalar hc2 w, ?_⟩
  have hov : Spectrum.convertTo (F := Dbl)
      { values := .scalar w, stype := lower t, unit := c,
        std := .scalar (fromElem safeInverseScalar (lower t) c w) } t u = .ok (.scalar (toElem safeInverseScalar (lower t) c
      (fromElem safeInverseScalar (lower t) c w))) := by
    rw [Spectrum.convertTo_eq, specLookup_ok_iff.2 hc]
    exact convertVals_scalar (names_pairs _ hc) _
  refine (table_evaluate [(a, y), (b, z)] t u c hc 1 data hdata hnn _ _ hov (by simp [Vals.toList])
    ?_).2 ?_
  · intro x hx
    simp only [Vals.toList, List.mem_singleton] at hx
    subst hx
    show PyFloat.isNaN (Dbl.val _) = false
    rw [hconv]; rfl
  · intro hw
    obtain ⟨⟨p, hp, hp'⟩, ⟨q, hq, hq'⟩⟩ := hw _ (List.mem_singleton.2 rfl)
    simp only [List.map_cons, List.map_nil, List.mem_cons, List.not_mem_nil, or_false] at hp hq
    have e1 : PyFloat.le p.val (Dbl.val (toElem safeInverseScalar (lower t) c
      (fromElem safeInverseScalar (lower t) c w))) = true := hp'
    have e2 : PyFloat.le (Dbl.val (toElem safeInverseScalar (lower t) c
      (fromElem safeInverseScalar (lower t) c w))) q.val = true := hq'
    rw [hconv] at e1 e2
    rcases hout with hout | hout
    · rcases hq with rfl | rfl
      · rw [ha] at e2
        simp only [XR.le_fin, decide_eq_true_eq] at e2
        linarith
      · rw [hb] at e2
        simp only [XR.le_fin, decide_eq_true_eq] at e2
        linarith
    · rcases hp with rfl | rfl
      · rw [ha] at e1
        simp only [XR.le_fin, decide_eq_true_eq] at e1
        linarith
      · rw [hb] at e1
        simp only [XR.le_fin, decide_eq_true_eq] at e1
        linarith

/-- C86: a table from 400 nm to 4100 nm cannot be evaluated at 4100 nm. -/
theorem C86_nanometres [SciPy Dbl] (y z : Dbl) : ∃ data s,
    RealData.newInterp .float [(lit 400, y), (lit 4100, z)] "wavelength" "nm" 1 = .ok data ∧
      Spectrum.new (.float (lit 4100)) "wavelength" "nm" = .ok s ∧
      (data.evaluate s).1 = .error .value := by
  have v0 : (lit 400 : Dbl).val = .fin 400 := by
    exact_mod_cast Dbl.lit_int (n := 400) (by norm_num)
  have v1 : (lit 4100 : Dbl).val = .fin 4100 := by
    exact_mod_cast Dbl.lit_int (n := 4100) (by norm_num)
  have hl : lower "wavelength" = "wavelength" := by decide +kernel
  have := end_fails "wavelength" "nm" "nm" (by decide +kernel) (lit 400) (lit 4100) y z (lit 4100) 400 4100 _
    v0 v1 (by norm_num) (by rw [hl]; exact nm_4100) (Or.inl (by norm_num))
  exact this

/-- 1 THz becomes 0.9999999999999999 THz. -/
theorem hz_1e12 : (toElem safeInverseScalar "frequency" "hz"
    (fromElem safeInverseScalar "frequency" "hz" (lit 1000000000000 : Dbl))).val =
      .fin (8191999999999999 * 2 ^ (-13 : ℤ)) := by
  simp only [toElem, fromElem, if_true]
  have v0 : (lit 1000000000000 : Dbl).val = .fin 1000000000000 := by
    exact_mod_cast Dbl.lit_int (n := 1000000000000) (by norm_num)
  have v1 : (lit 1 : Dbl).val = .fin 1 := by exact_mod_cast Dbl.lit_int (n := 1) (by norm_num)
  have vc : (cLight : Dbl).val = .fin 299792458 := by
    exact_mod_cast Dbl.lit_int (n := 299792458) (by norm_num)
  have inv : ∀ (a : Dbl) (x : ℝ), a.val = .fin x → x ≠ 0 → safeInverseScalar a = lit 1 / a := by
    intro a x hx h0
    have e1 : PyFloat.eq a (lit 0) = false := by
      have z0 : (lit 0 : Dbl).val = .fin 0 := by exact_mod_cast Dbl.lit_int (n := 0) (by norm_num)
      show PyFloat.eq a.val (lit 0 : Dbl).val = false
      rw [hx, z0]; simp [h0]
    have e2 : PyFloat.eq a PyFloat.inf = false := by
      show PyFloat.eq a.val (PyFloat.inf : XR) = false
      rw [hx]; simp
    simp [safeInverseScalar, e1, e2]
  rw [inv _ _ v0 (by norm_num)]
  have v2 := Dbl.div_hand v1 v0 (by norm_num) 4951760157141521 (-92) (by norm_num) (by norm_num)
    (by norm_num) (by norm_num) (by norm_num) (by norm_num [abs_lt])
  have v3 := Dbl.mul_hand vc v2 5530194747954320 (-64) (by norm_num) (by norm_num)
    (by norm_num) (by norm_num) (by norm_num) (by norm_num [abs_lt])
  rw [inv _ _ v3 (by norm_num)]
  have v4 := Dbl.div_hand v1 v3 (by norm_num) 7335152025578975 (-41) (by norm_num) (by norm_num)
    (by norm_num) (by norm_num) (by norm_num) (by norm_num [abs_lt])
  have v5 := Dbl.mul_hand vc v4 8191999999999999 (-13) (by norm_num) (by norm_num)
    (by norm_num) (by norm_num) (by norm_num) (by norm_num [abs_lt])
  exact_mod_cast v5

/-- C86: a table from 1 THz to 2 THz cannot be evaluated at 1 THz. -/
theorem C86_frequencies [SciPy Dbl] (y z : Dbl) : ∃ data s,
    RealData.newInterp .float [(lit 1000000000000, y), (lit 2000000000000, z)] "frequency" "hz" 1 =
        .ok data ∧
      Spectrum.new (.float (lit 1000000000000)) "frequency" "hz" = .ok s ∧
      (data.evaluate s).1 = .error .value := by
  have v0 : (lit 1000000000000 : Dbl).val = .fin 1000000000000 := by
    exact_mod_cast Dbl.lit_int (n := 1000000000000) (by norm_num)
  have v1 : (lit 2000000000000 : Dbl).val = .fin 2000000000000 := by
    exact_mod_cast Dbl.lit_int (n := 2000000000000) (by norm_num)
  have hl : lower "frequency" = "frequency" := by decide +kernel
  have := end_fails "frequency" "hz" "hz" (by decide +kernel) (lit 1000000000000) (lit 2000000000000) y z
    (lit 1000000000000) _ _ _ v0 v1 (by norm_num) (by rw [hl]; exact hz_1e12) (Or.inr (by norm_num))
  exact this

/-- C86 is false. -/
theorem C86_refuted [SciPy Dbl] : ¬ C86_statement := by
  intro hst
  obtain ⟨data, s, h1, h2, h3⟩ := C86_nanometres (lit 1) (lit 2)
  have e1 : dec 400 0 = lit 400 := by unfold dec; norm_num
  have e2 : dec 4100 0 = lit 4100 := by unfold dec; norm_num
  obtain ⟨v, hv⟩ := hst "wavelength" "nm" "nm" (by decide +kernel) (by decide +kernel)
    [(400, lit 1), (4100, lit 2)] 0 (fun e _ => Nat.zero_le e) (by simp) data
    (by simp only [List.map_cons, List.map_nil, e1, e2]; exact h1) (4100, lit 2) (by simp) s
    (by rw [e2]; exact h2)
  rw [h3] at hv
  cases hv

end
end Disp
