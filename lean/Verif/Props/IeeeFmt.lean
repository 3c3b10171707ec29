import Verif.Props.IeeeText
import Verif.Props.FloatFiles
import Verif.Spec.CmdLine

/-! # C113: printing all float64 numbers -/

namespace StlDice.IeeeT
open Spec F64 Flag Ieee

theorem digits_text {ds : Bytes} (hd : Digits ds) : OptDigits 10 ds (digitsVal ds) ∧ digitCount ds = ds.length := by
  induction ds using List.reverseRecOn with
  | nil => exact ⟨.inl ⟨rfl, rfl⟩, rfl⟩
  | append_singleton ds c ih =>
    obtain ⟨h1, h2⟩ := ih (fun c hc => hd c (List.mem_append_left _ hc))
    have hc := hd c (List.mem_append_right _ (List.mem_singleton_self c))
    have hv := (chars c).2.2.2.2.2.2.1 hc
    have hlt : c.toNat - 48 < 10 := by
      unfold isDigit at hc
      simp only [Bool.and_eq_true, decide_eq_true_eq] at hc
      omega
    have hi := (digitVal_iff (base := 10) (by simp) c _).mp ⟨hv, hlt⟩
    have h95 := ((chars c).2.2.1.mp hc).1
    constructor
    · rw [digitsVal_append_single]
      right
      rcases h1 with ⟨rfl, e⟩ | h1
      · rw [e, Nat.zero_mul, Nat.zero_add]
        exact .one hi
      · exact .digit h1 hi
    · rw [digitCount_append, h2, digitCount_cons, if_neg h95, List.length_append]
      rfl

/-- A decimal number without underscores. -/
theorem decimal_magnitude {s : Bytes} {v : ℚ} (h : Decimal s v) :
    ∃ sg neg m u, s = sg ++ m ∧ Sign sg neg ∧ Magnitude m u ∧ v = (if neg then -1 else 1) * u := by
  obtain ⟨sg, neg, ip, fr, fp, ex, e, rfl, hsg, hi, hf, hne, hfr, hx, rfl⟩ := h
  refine ⟨sg, neg, ip ++ (fr ++ ex), digitsVal (ip ++ fp) * 10 ^ (e - (fp.length : Int)), rfl, hsg, ?_, rfl⟩
  obtain ⟨o1, c1⟩ := digits_text hi
  obtain ⟨o2, c2⟩ := digits_text hf
  have hm : Mantissa 10 (ip ++ fr) (digitsVal ip + digitsVal fp / (10 : Nat) ^ digitCount fp) := by
    refine (mantissa_iff (.inl rfl) _ _).mpr ⟨ip, fr, fp, _, _, rfl, o1, o2, hfr, ?_, rfl⟩
    rw [digitCount_append, c1, c2, ← List.length_append]
    intro h0
    exact hne (List.length_eq_zero_iff.mp h0)
  have hv : (digitsVal (ip ++ fp) : ℚ) * 10 ^ (e - (fp.length : Int)) = (digitsVal ip + digitsVal fp / (10 : Nat) ^ digitCount fp) * 10 ^ e := by
    rw [digitsVal_append, ← c2, ← scaled_dec]
    unfold scaled
    rw [if_neg (by decide)]
  rw [hv]
  rcases hx with ⟨rfl, rfl⟩ | ⟨c, sg', neg', ds, rfl, hc, hs', h0, hds, rfl⟩
  · rw [zpow_zero, mul_one, List.append_nil]
    exact .dec hm
  · obtain ⟨o3, -⟩ := digits_text hds
    have o3 : DigitText 10 ds (digitsVal ds) := by
      rcases o3 with ⟨e, -⟩ | h
      · exact absurd e h0
      · exact h
    rw [← List.append_assoc]
    exact .decExp hm ((expPart_iff "e" "E" 101 69 (by decide) (by decide) _ _).mpr ⟨c, sg', neg', ds, _, rfl, hc, hs', o3, rfl⟩)

/-- The exponents of float64 numbers are short. -/
theorem shortest_dp {a : ℚ} (ha : Binary64 a) (a0 : 0 < a) (a1 : a < 2 ^ 1024) :
    -1076 < (shortest a).2 ∧ (shortest a).2 ≤ 1024 := by
  obtain ⟨hd, hl, -, hlo, hr, -⟩ := shortest_spec ha a0
  generalize shortest a = S at *
  obtain ⟨ds, dp⟩ := S
  dsimp only at *
  have hhi : digitsVal ds < 10 ^ ds.length := by
    obtain ⟨o, c⟩ := digits_text hd
    obtain ⟨m, hm, hn⟩ := mant_reads (.inl rfl) ds ((group_iff (.inl rfl) (i := .other) (.inr rfl) ds _).mp o).1
    have h0 := ((group_iff (.inl rfl) (i := .other) (.inr rfl) ds _).mp o).2.2
    rw [hn, Nat.zero_mul, Nat.zero_add] at h0
    injection h0 with h0
    rw [← h0, ← c]
    exact hm
  constructor
  · by_contra hc
    have q0 : 0 ≤ (digitsVal ds : ℚ) * 10 ^ (dp - (ds.length : Int)) := by
      clear a1 hr
      positivity
    have : rnd ((digitsVal ds : ℚ) * 10 ^ (dp - (ds.length : Int))) = 0 :=
      rnd_tiny q0 (small_of (b := 10) (by norm_num) (D := ds.length) (by exact_mod_cast hhi) (by omega))
    rw [this] at hr
    exact absurd hr a0.ne
  · by_contra hc
    have h1 : (2 : ℚ) ^ (1024 : Int) ≤ (digitsVal ds : ℚ) * 10 ^ (dp - (ds.length : Int)) := by
      have h2 : ((10 : ℚ) ^ (ds.length - 1)) ≤ digitsVal ds := by exact_mod_cast hlo
      calc (2 : ℚ) ^ (1024 : Int) ≤ 10 ^ (1024 : Int) := zpow_le_zpow_left₀ (by norm_num) (by norm_num) (by norm_num)
        _ ≤ 10 ^ (((ds.length - 1 : Nat) : Int) + (dp - (ds.length : Int))) := zpow_le_zpow_right₀ (by norm_num) (by omega)
        _ = 10 ^ (ds.length - 1) * 10 ^ (dp - (ds.length : Int)) := by rw [zpow_add₀ (by norm_num), zpow_natCast]
        _ ≤ _ := mul_le_mul_of_nonneg_right h2 (by positivity)
    have := rnd_huge h1
    rw [hr] at this
    exact lt_irrefl _ (lt_of_le_of_lt this a1)

theorem fmtPos_short {a : ℚ} (ha : Binary64 a) (a0 : 0 < a) (a1 : a < 2 ^ 1024) : (fmtPos a).length ≤ 1999 := by
  obtain ⟨h1, h2⟩ := shortest_dp ha a0 a1
  obtain ⟨-, -, hl, -⟩ := shortest_spec ha a0
  unfold fmtPos
  generalize shortest a = S at *
  obtain ⟨ds, dp⟩ := S
  dsimp only at *
  split
  · unfold formE fmtExp
    have hn : (fmtNat (dp - 1).natAbs).length ≤ 1 + (dp - 1).natAbs := by
      obtain ⟨-, g, -⟩ := fmtNat_length (dp - 1).natAbs
      rcases Nat.eq_zero_or_pos (dp - 1).natAbs with h0 | h0
      · rw [h0]; decide
      · have g := g h0
        have := Nat.lt_pow_self (n := (fmtNat (dp - 1).natAbs).length - 1) (by norm_num : 1 < 10)
        omega
    have e1 : (if ds.length ≤ 1 then ([] : Bytes) else 46 :: ds.drop 1).length ≤ 1 + ds.length := by split <;> simp <;> omega
    have e2 : (if dp - 1 < 0 then ([45] : Bytes) else [43]).length = 1 := by split <;> rfl
    have e3 : (if (dp - 1).natAbs < 10 then 48 :: fmtNat (dp - 1).natAbs else fmtNat (dp - 1).natAbs).length ≤ 2 + (dp - 1).natAbs := by
      split
      · rw [List.length_cons]; omega
      · omega
    simp only [List.length_append, List.length_cons, List.length_take, e2]
    omega
  · unfold formF
    split
    · simp; omega
    · split
      · simp; omega
      · simp; omega

theorem fin_text {s : Bool} {a : ℚ} (ok : 0 ≤ a ∧ a < 2 ^ 1024 ∧ rnd a = a) :
    FloatOf (fmtFloat (.fin s a ok)) (.fin s a ok) ∧ (fmtFloat (.fin s a ok)).length ≤ 2000 ∧
      ∃ v, Decimal (fmtFloat (.fin s a ok)) v := by
  have hsg : Sign (if s then [45] else []) s := by
    cases s
    · exact .inl ⟨rfl, rfl⟩
    · exact .inr (.inr ⟨rfl, rfl⟩)
  have hsl : (if s then ([45] : Bytes) else []).length ≤ 1 := by cases s <;> simp
  have un : fmtFloat (.fin s a ok) = (if s then [45] else []) ++ (if a = 0 then [48] else fmtPos a) := rfl
  rw [un]
  by_cases h0 : a = 0
  · subst h0
    rw [if_pos rfl]
    have z : Digits [48] := zeros_digits 1
    have hd : Decimal ((if s then [45] else []) ++ [48]) ((if s then -1 else 1) * 0) := by
      refine ⟨_, s, [48], [], [], [], 0, rfl, hsg, z, fun c hc => (by cases hc), List.cons_ne_nil _ _, .inl ⟨rfl, rfl⟩, .inl ⟨rfl, rfl⟩, ?_⟩
      have : digitsVal ([48] ++ []) = 0 := rfl
      rw [this, Nat.cast_zero, zero_mul]
    refine ⟨?_, by simp only [List.length_append, List.length_singleton]; omega, _, hd⟩
    obtain ⟨o, -⟩ := digits_text z
    have hm : Magnitude [48] ((0 : Nat) : ℚ) := by
      rcases o with ⟨h, -⟩ | h
      · cases h
      · exact .dec (.whole h)
    have := FloatOf.number hsg hm (by rw [Nat.cast_zero, rnd_zero]; exact ok)
    exact this
  · rw [if_neg h0]
    have a0 : 0 < a := lt_of_le_of_ne ok.1 (Ne.symm h0)
    have ha : Binary64 a := (mem_iff _).mpr ok.2.2
    obtain ⟨v, hv, hr⟩ := fmtPos_decimal hsg ha a0
    refine ⟨?_, ?_, v, hv⟩
    · obtain ⟨sg, neg, m, u, hs, hsg', hm, rfl⟩ := decimal_magnitude hv
      obtain ⟨_, hl⟩ := (lit_iff m false u).mpr ⟨[], m, rfl, .inl ⟨rfl, rfl⟩, hm⟩
      have u0 : 0 ≤ u := by
        obtain ⟨base, p, sg, I, dF, F, ex, e, t, a, b, -, -, -, -, -, -, -, -, -, -, rfl⟩ := hl
        exact scaled_nonneg _ _ _ _
      have r0 := rnd_nonneg u0
      rw [hs]
      have key : neg = s ∧ rnd u = a := by
        cases neg <;> cases s <;> simp only [Bool.false_eq_true, if_false, if_true, one_mul, neg_one_mul, rnd_neg, reduceCtorEq, false_and, true_and] at hr ⊢ <;>
          linarith
      obtain ⟨rfl, e⟩ := key
      have := FloatOf.number hsg' hm (by rw [e]; exact ok)
      have e2 : Ieee.fin neg (rnd u) (by rw [e]; exact ok) = .fin neg a ok := by congr 1
      rw [e2] at this
      exact this
    · have := fmtPos_short ha a0 ok.2.1
      rw [List.length_append]
      omega

theorem special_text (x : Ieee) (h : x = .nan ∨ ∃ s, x = .inf s) : FloatOf (fmtFloat x) x ∧ (fmtFloat x).length ≤ 2000 ∧
    fmtFloat x ∈ [ascii "NaN", ascii "+Inf", ascii "-Inf"] := by
  rcases h with rfl | ⟨s, rfl⟩
  · exact ⟨.special (.nan ((anyCase_iff (by decide)).mpr (by decide))), by decide, by decide⟩
  · cases s
    · exact ⟨.special (.inf (sg := ascii "+") (w := ascii "Inf") (.inr (.inl ⟨rfl, rfl⟩)) (.inl ((anyCase_iff (by decide)).mpr (by decide)))),
        by decide, by decide⟩
    · exact ⟨.special (.inf (sg := ascii "-") (w := ascii "Inf") (.inr (.inr ⟨rfl, rfl⟩)) (.inl ((anyCase_iff (by decide)).mpr (by decide)))),
        by decide, by decide⟩

/-- **C113.** What is printed for a float64, infinities, NaN and both zeros included, is a text of this float64. -/
theorem fmt_float_of (x : Ieee) : FloatOf (fmtFloat x) x ∧ (fmtFloat x).length ≤ 2000 := by
  cases x with
  | fin s a ok => exact ⟨(fin_text ok).1, (fin_text ok).2.1⟩
  | inf s => exact ⟨(special_text _ (.inr ⟨s, rfl⟩)).1, (special_text _ (.inr ⟨s, rfl⟩)).2.1⟩
  | nan => exact ⟨(special_text _ (.inl rfl)).1, (special_text _ (.inl rfl)).2.1⟩

/-- **C113.** … and is read back as the same float64. -/
theorem float_text_ieee (x : Ieee) : Ieee.parse (fmtFloat x) = some x :=
  (parse_float_iff (fmt_float_of x).2 x).mpr (fmt_float_of x).1

theorem ieee_plain (x : Ieee) : PlainWord (fmtFloat x) := by
  have sp : fmtFloat x ∈ [ascii "NaN", ascii "+Inf", ascii "-Inf"] → PlainWord (fmtFloat x) := by
    generalize fmtFloat x = w
    intro h
    have : ∀ w ∈ [ascii "NaN", ascii "+Inf", ascii "-Inf"], PlainWord w := by
      unfold PlainWord
      decide
    exact this w h
  cases x with
  | fin s a ok =>
    obtain ⟨v, hv⟩ := (fin_text (s := s) ok).2.2
    obtain ⟨h1, h2⟩ := decimal_chars hv
    refine ⟨h1, fun c hc => ⟨decChar_space (h2 c hc), ?_⟩⟩
    have := h2 c hc
    refine ⟨?_, ?_, ?_, ?_, ?_⟩ <;> (rintro rfl; unfold decChar at this; revert this; decide)
  | inf s => exact sp (special_text _ (.inr ⟨s, rfl⟩)).2.2
  | nan => exact sp (special_text _ (.inl rfl)).2.2

/-- Go's text for all of float64 is lawful. -/
instance lawful : LawfulFloatText Ieee where
  parse_fmt := float_text_ieee
  fmt_ne_nil x := (ieee_plain x).1
  fmt_nospace x c hc := ((ieee_plain x).2 c hc).1

/-- **C113.** A binvox file is read back with exactly the same numbers, even if they are infinite or NaN, and the same voxels. -/
theorem binvox_roundtrip_ieee (b : BinVOX Ieee) (hne : b.white ≠ [])
    (hx : 0 ≤ b.NX ∧ b.NX ≤ maxInt) (hy : 0 ≤ b.NY ∧ b.NY ≤ maxInt) (hz : 0 ≤ b.NZ ∧ b.NZ ≤ maxInt)
    (env : FileEnv) (hc : env.createOk = true) (hp : ∀ o ∈ env.plan, o = WOut.full) (hcl : env.closeOk = true) :
    ∃ file b', b.Write env wholeRegion = (some file, true) ∧
      BinVOX.Read (some ⟨file, true⟩) wholeRegion = some b' ∧
      b'.NX = b.NX ∧ b'.NY = b.NY ∧ b'.NZ = b.NZ ∧ b'.TX = b.TX ∧ b'.TY = b.TY ∧ b'.TZ = b.TZ ∧
      b'.Scale = b.Scale ∧ ∀ k, Vox b' k ↔ Vox b k ∧ InDims b.NX b.NY b.NZ k :=
  write_read_roundtrip b hne hx hy hz env hc hp hcl

/-- **C113.** The box stldice logs is read back from `-mbb` with exactly the same float64 numbers, of whatever kind. -/
theorem mbb_ieee (b : BinVOX.Box Ieee) : parseMBB (mbbText FloatText.fmtG b) = some b :=
  parseMBB_logged _ ieee_plain LawfulFloatText.parse_fmt b

/-- White minus white is nothing in full float64, so what is proved of voxcut and voxcut-dice (C25–C27, C38, C60, C73, C79) holds in it. -/
theorem whiteCancels_ieee : WhiteCancels Ieee := by
  unfold WhiteCancels
  decide +kernel

/-- **C113.** The texts a float flag of a command accepts. -/
theorem float_flag_iff {v : Bytes} (hv : v.length ≤ 2000) :
    ValueText (fun v => (Ieee.parse v).isSome) .float v ↔ ∃ x, FloatOf v x := by
  show (Ieee.parse v).isSome = true ↔ _
  rw [Option.isSome_iff_exists]
  exact exists_congr fun x => parse_float_iff hv x

/-! ## Examples -/

/-- `0x_1.8p+1` is the number 3. -/
example : Ieee.parse (ascii "0x_1.8p+1") = some (.fin false 3 ⟨by norm_num, by decide +kernel, by decide +kernel⟩) := by decide +kernel

/-- `-1_0.25E-1`, rounded. -/
example : ∃ a ok, Ieee.parse (ascii "-1_0.25E-1") = some (.fin true a ok) ∧ a = rnd (41 / 40) :=
  ⟨rnd (41 / 40), by decide +kernel, by decide +kernel, rfl⟩

/-- Underscores at a wrong place, a hexadecimal number without exponent, overflow, `+nan`: errors. -/
example : (["1__0", "1_.5", "0x1.8", "1e309", "-1e400", "+nan", "infi", "1e", ".", "0x.p1"].map fun s => Ieee.parse (ascii s)) =
    List.replicate 10 none := by decide +kernel

/-- Very small numbers are zeros with their sign; `-infinity` in any case. -/
example : Ieee.parse (ascii "-1e-400") = some (.fin true 0 ⟨le_rfl, by norm_num, rfl⟩) ∧ Ieee.parse (ascii "-InFiniTy") = some (.inf true) := by
  decide +kernel

/-- What they are by the grammar. -/
example := (parse_float_iff (s := ascii "-InFiniTy") (by decide) (.inf true)).mp (by decide +kernel)

example := (parse_float_iff (s := ascii "0x_1.8p+1") (by decide) (.fin false 3 ⟨by norm_num, by decide +kernel, by decide +kernel⟩)).mp (by decide +kernel)

/-- A model without a number for its scale. -/
example := binvox_roundtrip_ieee
  ({ NX := 2, NY := 2, NZ := 2, TX := .inf true, TY := .nan, TZ := .fin true 0 ⟨le_rfl, by norm_num, rfl⟩, Scale := .nan,
     WhiteVoxels := some [(⟨0, 1, 0⟩, ())], ColorVoxels := none } : BinVOX Ieee)
  (by unfold BinVOX.white; decide) (by decide) (by decide) (by decide) ⟨true, [], true⟩ rfl (by decide) rfl

end StlDice.IeeeT
