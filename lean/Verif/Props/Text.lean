import Verif.Model.Text
import Verif.Util
import Mathlib.Data.Rat.Floor
import Mathlib.Tactic

/-! # C111: numbers written to a file are read back to the printed precision -/

set_option autoImplicit false
set_option linter.unusedSectionVars false

namespace Verif

/-! ## Words -/

/-- A word: not empty, no white space. -/
def IsWord (w : List Char) : Prop := w ≠ [] ∧ ∀ c ∈ w, isBlank c = false

/-- White space only. -/
def IsBlankText (b : List Char) : Prop := ∀ c ∈ b, isBlank c = true

theorem splitGo_word (acc w rest : List Char) (h : ∀ c ∈ w, isBlank c = false) : splitGo acc (w ++ rest) = splitGo (w.reverse ++ acc) rest := by
  induction w generalizing acc with
  | nil => rfl
  | cons c w ih =>
    rw [List.cons_append, splitGo, if_neg (by simp [h c (by simp)]), ih _ fun d hd => h d (by simp [hd])]
    simp

theorem splitGo_blank (b rest : List Char) (h : IsBlankText b) : splitGo [] (b ++ rest) = splitGo [] rest := by
  induction b with
  | nil => rfl
  | cons c b ih =>
    rw [List.cons_append, splitGo, if_pos (h c (by simp)), if_pos rfl, ih fun d hd => h d (by simp [hd])]

theorem splitGo_end (acc b rest : List Char) (hacc : acc ≠ []) (hb : IsBlankText b) (hne : b ≠ []) : splitGo acc (b ++ rest) = acc.reverse :: splitGo [] rest := by
  cases b with
  | nil => exact absurd rfl hne
  | cons c b =>
    rw [List.cons_append, splitGo, if_pos (hb c (by simp)), if_neg hacc, splitGo_blank b rest fun d hd => hb d (by simp [hd])]

/-- C111: words that are separated by white space come back one by one, whatever the white space is. -/
theorem C111_words (items : List (List Char × List Char)) (first last : List Char) (hf : IsBlankText first) (hl : IsBlankText last)
    (hitems : ∀ p ∈ items, IsWord p.1 ∧ IsBlankText p.2 ∧ p.2 ≠ []) (w : List Char) (hw : IsWord w) :
    pySplit (first ++ (items.flatMap fun p => p.1 ++ p.2) ++ w ++ last) = items.map Prod.fst ++ [w] := by
  unfold pySplit
  rw [List.append_assoc, List.append_assoc, splitGo_blank _ _ hf]
  induction items with
  | nil =>
    rw [List.flatMap_nil, List.nil_append, splitGo_word _ _ _ hw.2, List.append_nil]
    rcases last with _ | ⟨c, last⟩
    · rw [splitGo, if_neg (by simp [hw.1]), List.reverse_reverse]; rfl
    · have := splitGo_end w.reverse (c :: last) [] (by simp [hw.1]) hl (by simp)
      rw [List.append_nil] at this
      rw [this]
      simp [splitGo]
  | cons p items ih =>
    obtain ⟨h1, h2, h3⟩ := hitems p (by simp)
    rw [List.flatMap_cons, List.append_assoc, List.append_assoc, splitGo_word _ _ _ h1.2, List.append_nil,
      splitGo_end _ _ _ (by simp [h1.1]) h2 h3, List.reverse_reverse, ih fun q hq => hitems q (by simp [hq])]
    rfl

theorem dropWhile_blank (b w : List Char) (hb : IsBlankText b) (hw : IsWord w) : (b ++ w).dropWhile isBlank = w := by
  induction b with
  | nil =>
    cases w with
    | nil => rfl
    | cons c w => rw [List.nil_append, List.dropWhile_cons, if_neg (by simp [hw.2 c (by simp)])]
  | cons c b ih => rw [List.cons_append, List.dropWhile_cons, if_pos (hb c (by simp)), ih fun d hd => hb d (by simp [hd])]

theorem pyStrip_word (b w b' : List Char) (hb : IsBlankText b) (hb' : IsBlankText b') (hw : IsWord w) : pyStrip (b ++ w ++ b') = w := by
  unfold pyStrip
  have h1 : (b ++ w ++ b').dropWhile isBlank = w ++ b' := by
    obtain ⟨c, w', rfl⟩ := List.exists_cons_of_ne_nil hw.1
    have : b ++ c :: w' ++ b' = b ++ (c :: w' ++ b') := by simp
    rw [this]
    clear this
    induction b with
    | nil => rw [List.nil_append, List.cons_append, List.dropWhile_cons, if_neg (by simp [hw.2 c (by simp)])]
    | cons d b ih => rw [List.cons_append, List.dropWhile_cons, if_pos (hb d (by simp)), ih fun e he => hb e (by simp [he])]
  rw [h1, List.reverse_append, dropWhile_blank, List.reverse_reverse]
  · intro c hc; exact hb' c (by simpa using hc)
  · exact ⟨by simp [hw.1], fun c hc => hw.2 c (by simpa using hc)⟩

/-! ## Digits -/

theorem digitVal_digitChar : ∀ d : ℕ, d < 10 → digitVal (digitChar d) = some d := by decide

theorem isBlank_digitChar : ∀ d : ℕ, d < 10 → isBlank (digitChar d) = false := by decide

theorem takeDigits_append (ds : List ℕ) (rest : List Char) (hds : ∀ d ∈ ds, d < 10) (hrest : ∀ c, rest.head? = some c → digitVal c = none) :
    takeDigits (ds.map digitChar ++ rest) = (ds, rest) := by
  induction ds with
  | nil =>
    cases rest with
    | nil => rfl
    | cons c rest => rw [List.map_nil, List.nil_append, takeDigits, hrest c rfl]
  | cons d ds ih =>
    rw [List.map_cons, List.cons_append, takeDigits, digitVal_digitChar d (hds d (by simp)), ih fun e he => hds e (by simp [he])]

theorem digitsValue_append (a b : List ℕ) : digitsValue (a ++ b) = digitsValue a * 10 ^ b.length + digitsValue b := by
  have key : ∀ (b : List ℕ) (s : ℕ), b.foldl (fun a d => 10 * a + d) s = s * 10 ^ b.length + b.foldl (fun a d => 10 * a + d) 0 := by
    intro b
    induction b with
    | nil => intro s; simp
    | cons d b ih =>
      intro s
      rw [List.foldl_cons, List.foldl_cons, ih (10 * s + d), ih (10 * 0 + d), List.length_cons, pow_succ]
      ring
  unfold digitsValue
  rw [List.foldl_append, key b]

/-- The digits of `natText`. -/
def natDigits (n : ℕ) : List ℕ := if n = 0 then [0] else (Nat.digits 10 n).reverse

theorem natText_eq (n : ℕ) : natText n = (natDigits n).map digitChar := by
  unfold natText natDigits
  split_ifs
  · rfl
  · rfl

theorem natDigits_lt (n : ℕ) : ∀ d ∈ natDigits n, d < 10 := by
  unfold natDigits
  split_ifs
  · simp
  · intro d hd
    exact Nat.digits_lt_base (by norm_num) (by simpa using hd)

theorem natDigits_ne (n : ℕ) : natDigits n ≠ [] := by
  unfold natDigits
  split_ifs with h
  · simp
  · simpa [Nat.digits_ne_nil_iff_ne_zero] using h

theorem natDigits_value (n : ℕ) : digitsValue (natDigits n) = n := by
  unfold natDigits
  split_ifs with h
  · simp [digitsValue, h]
  · unfold digitsValue
    rw [List.foldl_reverse]
    have key : ∀ l : List ℕ, l.foldr (fun d a => 10 * a + d) 0 = Nat.ofDigits 10 l := by
      intro l
      induction l with
      | nil => rfl
      | cons d l ih => rw [List.foldr_cons, ih, Nat.ofDigits_cons]; push_cast; ring
    rw [key, Nat.ofDigits_digits]

theorem lastDigits_length (n f : ℕ) : (lastDigits n f).length = n := by
  induction n generalizing f with
  | zero => rfl
  | succ n ih => rw [lastDigits, List.length_append, ih]; rfl

theorem lastDigits_lt (n f : ℕ) : ∀ d ∈ lastDigits n f, d < 10 := by
  induction n generalizing f with
  | zero => simp [lastDigits]
  | succ n ih =>
    intro d hd
    rw [lastDigits, List.mem_append, List.mem_singleton] at hd
    rcases hd with hd | rfl
    · exact ih _ d hd
    · exact Nat.mod_lt _ (by norm_num)

theorem lastDigits_value (n f : ℕ) : digitsValue (lastDigits n f) = f % 10 ^ n := by
  induction n generalizing f with
  | zero => simp [lastDigits, digitsValue, Nat.mod_one]
  | succ n ih =>
    rw [lastDigits, digitsValue_append, ih, pow_succ', Nat.mod_mul]
    simp [digitsValue]
    ring

theorem map_digitChar_nonblank (ds : List ℕ) (h : ∀ d ∈ ds, d < 10) : ∀ c ∈ ds.map digitChar, isBlank c = false := by
  intro c hc
  obtain ⟨d, hd, rfl⟩ := List.mem_map.1 hc
  exact isBlank_digitChar d (h d hd)

theorem natText_word (n : ℕ) : IsWord (natText n) := by
  rw [natText_eq]
  exact ⟨by simp [natDigits_ne], map_digitChar_nonblank _ (natDigits_lt n)⟩

theorem takeSign_digits (ds : List ℕ) (rest : List Char) (hds : ∀ d ∈ ds, d < 10) (hne : ds ≠ []) :
    takeSign (ds.map digitChar ++ rest) = (false, ds.map digitChar ++ rest) := by
  obtain ⟨d, ds', rfl⟩ := List.exists_cons_of_ne_nil hne
  have hv := digitVal_digitChar d (hds d (by simp))
  rw [List.map_cons, List.cons_append]
  generalize digitChar d = c at *
  unfold takeSign
  split
  · rename_i h; simp only [List.cons.injEq] at h; rw [h.1] at hv; simp [digitVal] at hv
  · rename_i h; simp only [List.cons.injEq] at h; rw [h.1] at hv; simp [digitVal] at hv
  · rfl

/-- C111: whole numbers are read back exactly. -/
theorem C111_nat (n : ℕ) (b b' : List Char) (hb : IsBlankText b) (hb' : IsBlankText b') : pyIntText (b ++ natText n ++ b') = some (n : ℤ) := by
  unfold pyIntText
  rw [pyStrip_word _ _ _ hb hb' (natText_word n), natText_eq]
  have h1 := takeSign_digits (natDigits n) [] (natDigits_lt n) (natDigits_ne n)
  have h2 := takeDigits_append (natDigits n) [] (natDigits_lt n) (by simp)
  rw [List.append_nil] at h1 h2
  simp only [h1, h2, natDigits_ne, natDigits_value]
  simp

/-! ## Numbers with a point -/

section
variable {K : Type*} [Field K] [LinearOrder K] [IsStrictOrderedRing K] [FloorRing K]

theorem pointText_eq (dec m : ℕ) : pointText dec m = (natDigits (m / 10 ^ dec)).map digitChar ++ '.' :: (lastDigits dec m).map digitChar := by
  rw [pointText, natText_eq]

theorem pointText_nonblank (dec m : ℕ) : ∀ c ∈ pointText dec m, isBlank c = false := by
  rw [pointText_eq]
  intro c hc
  rcases List.mem_append.1 hc with hc | hc
  · exact map_digitChar_nonblank _ (natDigits_lt _) c hc
  · rcases List.mem_cons.1 hc with rfl | hc
    · decide
    · exact map_digitChar_nonblank _ (lastDigits_lt _ _) c hc

/-- Reading a number with sign, point and exponent. -/
theorem pyFloat_parts (b b' sgn et : List Char) (dec m : ℕ) (e : ℤ) (neg : Bool) (hb : IsBlankText b) (hb' : IsBlankText b')
    (hsgn : (sgn = [] ∧ neg = false) ∨ (sgn = ['+'] ∧ neg = false) ∨ (sgn = ['-'] ∧ neg = true)) (het : takeExponent et = some e) (hetb : ∀ c ∈ et, isBlank c = false)
    (hetd : ∀ c, et.head? = some c → digitVal c = none) :
    (pyFloat (b ++ (sgn ++ pointText dec m ++ et) ++ b') : Option K) = some (if neg then -((m : K) / 10 ^ dec * 10 ^ e) else (m : K) / 10 ^ dec * 10 ^ e) := by
  have hword : IsWord (sgn ++ pointText dec m ++ et) := by
    refine ⟨by simp [pointText], ?_⟩
    intro c hc
    rcases List.mem_append.1 hc with hc | hc
    · rcases List.mem_append.1 hc with hc | hc
      · rcases hsgn with ⟨rfl, -⟩ | ⟨rfl, -⟩ | ⟨rfl, -⟩
        · simp at hc
        · simp at hc; subst hc; decide
        · simp at hc; subst hc; decide
      · exact pointText_nonblank dec m c hc
    · exact hetb c hc
  have hsign : takeSign (sgn ++ pointText dec m ++ et) = (neg, pointText dec m ++ et) := by
    rw [List.append_assoc]
    rcases hsgn with ⟨rfl, rfl⟩ | ⟨rfl, rfl⟩ | ⟨rfl, rfl⟩
    · rw [List.nil_append, pointText_eq, List.append_assoc]
      exact takeSign_digits _ _ (natDigits_lt _) (natDigits_ne _)
    · rfl
    · rfl
  have h1 : takeDigits (pointText dec m ++ et) = (natDigits (m / 10 ^ dec), '.' :: ((lastDigits dec m).map digitChar ++ et)) := by
    rw [pointText_eq, List.append_assoc, takeDigits_append _ _ (natDigits_lt _) (by simp [digitVal])]
    simp
  have h2 : takeFraction ('.' :: ((lastDigits dec m).map digitChar ++ et)) = (lastDigits dec m, et) := by
    rw [takeFraction, takeDigits_append _ _ (lastDigits_lt _ _) hetd]
  have hval : digitsValue (natDigits (m / 10 ^ dec) ++ lastDigits dec m) = m := by
    rw [digitsValue_append, natDigits_value, lastDigits_value, lastDigits_length]
    exact Nat.div_add_mod' m _
  unfold pyFloat
  rw [pyStrip_word _ _ _ hb hb' hword]
  simp only [hsign, h1, h2, het, Option.map_some, hval, lastDigits_length, natDigits_ne, false_and, if_false]

theorem roundEven_neg (x : K) : roundEven (-x) = -roundEven x := by
  have h1 := Int.floor_le x
  have h2 := Int.lt_floor_add_one x
  by_cases hi : x = ⌊x⌋
  · rw [hi, ← Int.cast_neg, roundEven_intCast, roundEven_intCast]
  · have hlt : (⌊x⌋ : K) < x := lt_of_le_of_ne h1 (Ne.symm hi)
    have hfl : ⌊-x⌋ = -⌊x⌋ - 1 := by
      rw [Int.floor_eq_iff]
      push_cast
      constructor <;> linarith
    unfold roundEven
    simp only [hfl]
    push_cast
    by_cases a : x - ⌊x⌋ < 1 / 2
    · rw [if_pos a, if_neg (by linarith), if_pos (by linarith)]
      ring
    · rw [if_neg a]
      by_cases c : 1 / 2 < x - ⌊x⌋
      · rw [if_pos c, if_pos (by linarith)]
        ring
      · rw [if_neg c, if_neg (by linarith), if_neg (by linarith)]
        by_cases p : ⌊x⌋ % 2 = 0
        · rw [if_pos p, if_neg (by omega)]; ring
        · rw [if_neg p, if_pos (by omega)]; ring

theorem roundEven_nonneg' {x : K} (h : 0 ≤ x) : 0 ≤ roundEven x := by
  have h1 : 0 ≤ ⌊x⌋ := Int.floor_nonneg.2 h
  unfold roundEven
  simp only
  split_ifs <;> omega

theorem signText_cases (plus : Bool) (x : K) :
    (signText plus x = [] ∧ decide (x < 0) = false) ∨ (signText plus x = ['+'] ∧ decide (x < 0) = false) ∨ (signText plus x = ['-'] ∧ decide (x < 0) = true) := by
  unfold signText
  by_cases h : x < 0
  · simp [h]
  · cases plus <;> simp [h]

/-- C111: a number printed with `dec` decimals (`{:w.decf}`), with any white space around it, is read back as the multiple of `10^-dec` next to it. -/
theorem C111_fixed_eq (dec : ℕ) (x : K) (b b' : List Char) (hb : IsBlankText b) (hb' : IsBlankText b') :
    pyFloat (b ++ fixedText dec x ++ b') = some (aroundDec dec x) := by
  have h := pyFloat_parts (K := K) b b' (signText false x) [] dec (roundEven (|x| * 10 ^ dec)).toNat 0 (decide (x < 0)) hb hb' (signText_cases false x) rfl (by simp) (by simp)
  rw [List.append_nil] at h
  unfold fixedText
  rw [h]
  congr 1
  have hp : (0 : K) < 10 ^ dec := by positivity
  have hn := roundEven_nonneg' (x := |x| * 10 ^ dec) (by positivity)
  have hc : (((roundEven (|x| * 10 ^ dec)).toNat : ℕ) : K) = (roundEven (|x| * 10 ^ dec) : K) := by
    have : (((roundEven (|x| * 10 ^ dec)).toNat : ℕ) : ℤ) = roundEven (|x| * 10 ^ dec) := Int.toNat_of_nonneg hn
    exact_mod_cast congrArg (Int.cast : ℤ → K) this
  rw [hc, zpow_zero, mul_one]
  unfold aroundDec
  by_cases hx : x < 0
  · rw [if_pos (by simpa using hx), abs_of_neg hx, neg_mul, roundEven_neg]
    push_cast
    ring
  · rw [if_neg (by simpa using hx), abs_of_nonneg (not_lt.1 hx)]

theorem padLeft_eq (w : ℕ) (s : List Char) : ∃ b, IsBlankText b ∧ padLeft w s = b ++ s :=
  ⟨List.replicate (w - s.length) ' ', fun c hc => by rw [List.eq_of_mem_replicate hc]; rfl, rfl⟩

theorem aroundDec_error (dec : ℕ) (x : K) : |aroundDec dec x - x| ≤ 1 / 2 / 10 ^ dec := by
  have hp : (0 : K) < 10 ^ dec := by positivity
  have h := roundEven_abs_sub (x * 10 ^ dec)
  have : aroundDec dec x - x = -(x * 10 ^ dec - roundEven (x * 10 ^ dec)) / 10 ^ dec := by
    unfold aroundDec
    field_simp
    ring
  rw [this, abs_div, abs_neg, abs_of_pos hp]
  exact div_le_div_of_nonneg_right h hp.le

theorem aroundDec_grid (dec : ℕ) (k : ℤ) : aroundDec dec ((k : K) / 10 ^ dec) = k / 10 ^ dec := by
  have hp : (10 : K) ^ dec ≠ 0 := by positivity
  unfold aroundDec
  rw [div_mul_cancel₀ _ hp, roundEven_intCast]

theorem aroundDec_idem_text (dec : ℕ) (x : K) : aroundDec dec (aroundDec dec x) = aroundDec dec x := by
  conv_lhs => rw [aroundDec.eq_def dec x]
  rw [aroundDec_grid]
  rfl

/-- C111: a number printed in a field of `w` characters with `dec` decimals and read again differs by at most half a unit of the last digit; a number with at most `dec`
decimals does not change, so printing and reading a second time changes nothing. -/
theorem C111_fixed (w dec : ℕ) (x : K) (b b' : List Char) (hb : IsBlankText b) (hb' : IsBlankText b') :
    ∃ y : K, pyFloat (b ++ fixedField w dec x ++ b') = some y ∧ |y - x| ≤ 1 / 2 / 10 ^ dec ∧ (∀ k : ℤ, x = k / 10 ^ dec → y = x) ∧
      ∀ c c', IsBlankText c → IsBlankText c' → pyFloat (c ++ fixedField w dec y ++ c') = some y := by
  have key : ∀ (z : K) (c c' : List Char), IsBlankText c → IsBlankText c' → pyFloat (c ++ fixedField w dec z ++ c') = some (aroundDec dec z) := by
    intro z c c' hc hc'
    obtain ⟨p, hp, e⟩ := padLeft_eq w (fixedText dec z)
    rw [fixedField, e, ← List.append_assoc]
    exact C111_fixed_eq dec z (c ++ p) c' (fun d hd => by rcases List.mem_append.1 hd with h | h; exacts [hc d h, hp d h]) hc'
  refine ⟨aroundDec dec x, key x b b' hb hb', aroundDec_error dec x, ?_, ?_⟩
  · rintro k rfl
    exact aroundDec_grid dec k
  · intro c c' hc hc'
    rw [key _ c c' hc hc', aroundDec_idem_text]

theorem fixedText_word (dec : ℕ) (x : K) : IsWord (fixedText dec x) := by
  refine ⟨by simp [fixedText, pointText], ?_⟩
  intro c hc
  rcases List.mem_append.1 hc with hc | hc
  · unfold signText at hc
    split_ifs at hc with h1 h2
    · simp at hc; subst hc; decide
    · exact absurd h2 (by simp)
    · simp at hc
  · exact pointText_nonblank _ _ c hc

/-- The exponent text of `expText`. -/
theorem takeExponent_text (e : ℤ) :
    takeExponent ('e' :: (if e < 0 then '-' else '+') :: (if e.natAbs < 10 then '0' :: natText e.natAbs else natText e.natAbs)) = some e := by
  obtain ⟨ds, hds, hlt, hne, hval⟩ : ∃ ds : List ℕ, (if e.natAbs < 10 then '0' :: natText e.natAbs else natText e.natAbs) = ds.map digitChar ∧ (∀ d ∈ ds, d < 10) ∧ ds ≠ [] ∧
      digitsValue ds = e.natAbs := by
    by_cases h : e.natAbs < 10
    · refine ⟨0 :: natDigits e.natAbs, ?_, ?_, by simp, ?_⟩
      · rw [if_pos h, natText_eq]; rfl
      · intro d hd
        rcases List.mem_cons.1 hd with rfl | hd
        · norm_num
        · exact natDigits_lt _ d hd
      · have := digitsValue_append [0] (natDigits e.natAbs)
        rw [List.singleton_append, natDigits_value] at this
        simpa [digitsValue] using this
    · exact ⟨natDigits e.natAbs, by rw [if_neg h, natText_eq], natDigits_lt _, natDigits_ne _, natDigits_value _⟩
  rw [hds, takeExponent, if_pos (Or.inl rfl)]
  have h2 := takeDigits_append ds [] hlt (by simp)
  rw [List.append_nil] at h2
  by_cases h : e < 0
  · simp only [if_pos h, takeSign, h2, hne, hval, ne_eq, not_true_eq_false, or_false, if_false, if_true, Option.some.injEq]
    omega
  · simp only [if_neg h, takeSign, h2, hne, hval, ne_eq, not_true_eq_false, or_false, if_false, Option.some.injEq]
    simp only [Bool.false_eq_true, if_false]
    omega

/-- C111: a number printed with `dec` decimals and an exponent (`{:.dece}`, `%+.dece`) is read back with a relative error of at most half a unit of the last digit, and zero as zero. -/
theorem C111_exp (plus : Bool) (dec : ℕ) (x : K) (b b' : List Char) (hb : IsBlankText b) (hb' : IsBlankText b') :
    ∃ y : K, pyFloat (b ++ expText plus dec x ++ b') = some y ∧ |y - x| ≤ |x| * (1 / 2 / 10 ^ dec) := by
  have hparse := pyFloat_parts (K := K) b b' (signText plus x)
    ('e' :: (if (expParts dec x).2 < 0 then '-' else '+') :: (if (expParts dec x).2.natAbs < 10 then '0' :: natText (expParts dec x).2.natAbs else natText (expParts dec x).2.natAbs))
    dec (expParts dec x).1 (expParts dec x).2 (decide (x < 0)) hb hb' (signText_cases plus x) (takeExponent_text _) (by
      intro c hc
      rcases List.mem_cons.1 hc with rfl | hc
      · decide
      rcases List.mem_cons.1 hc with rfl | hc
      · split_ifs <;> decide
      have hn := (natText_word (expParts dec x).2.natAbs).2
      split_ifs at hc
      · rcases List.mem_cons.1 hc with rfl | hc
        · decide
        · exact hn c hc
      · exact hn c hc) (by simp [digitVal])
  refine ⟨_, hparse, ?_⟩
  by_cases hx : x = 0
  · subst hx
    simp [expParts]
  have hpos : 0 < |x| := abs_pos.2 hx
  have h10 : (10 : K) ≠ 0 := by norm_num
  have hd : (0 : K) < 10 ^ dec := by positivity
  set e := Int.log 10 |x| with he
  have hlo : (10 : K) ^ e ≤ |x| := by
    have := Int.zpow_log_le_self (b := 10) (by norm_num) hpos
    simpa using this
  have hep : (0 : K) < 10 ^ e := by positivity
  have hn := roundEven_nonneg' (x := |x| * 10 ^ ((dec : ℤ) - e)) (by positivity)
  have hcast : (((roundEven (|x| * 10 ^ ((dec : ℤ) - e))).toNat : ℕ) : K) = (roundEven (|x| * 10 ^ ((dec : ℤ) - e)) : K) := by
    have : (((roundEven (|x| * 10 ^ ((dec : ℤ) - e))).toNat : ℕ) : ℤ) = roundEven (|x| * 10 ^ ((dec : ℤ) - e)) := Int.toNat_of_nonneg hn
    exact_mod_cast congrArg (Int.cast : ℤ → K) this
  have hval : ((expParts dec x).1 : K) / 10 ^ dec * 10 ^ (expParts dec x).2 = (roundEven (|x| * 10 ^ ((dec : ℤ) - e)) : K) / 10 ^ dec * 10 ^ e := by
    unfold expParts
    rw [if_neg hx]
    simp only [← he]
    split_ifs with h
    · rw [← hcast, h, zpow_add₀ h10]
      push_cast
      rw [pow_succ, zpow_one]
      field_simp
    · rw [← hcast]
  rw [hval]
  have herr := roundEven_abs_sub (|x| * 10 ^ ((dec : ℤ) - e))
  set M := roundEven (|x| * 10 ^ ((dec : ℤ) - e))
  have hM : (M : K) / 10 ^ dec * 10 ^ e - |x| = -(|x| * 10 ^ ((dec : ℤ) - e) - M) / 10 ^ dec * 10 ^ e := by
    rw [zpow_sub₀ h10, zpow_natCast]
    field_simp
    ring
  have hfin : abs ((M : K) / 10 ^ dec * 10 ^ e - |x|) ≤ |x| * (1 / 2 / 10 ^ dec) := by
    rw [hM, abs_mul, abs_div, abs_neg, abs_of_pos hd, abs_of_pos hep]
    calc abs (|x| * 10 ^ ((dec : ℤ) - e) - (M : K)) / 10 ^ dec * 10 ^ e ≤ 1 / 2 / 10 ^ dec * |x| := by
          apply mul_le_mul _ hlo hep.le (by positivity)
          exact div_le_div_of_nonneg_right herr hd.le
      _ = |x| * (1 / 2 / 10 ^ dec) := by ring
  by_cases hs : x < 0
  · rw [if_pos (by simpa using hs)]
    rw [abs_of_neg hs] at hfin ⊢
    have : -((M : K) / 10 ^ dec * 10 ^ e) - x = -((M : K) / 10 ^ dec * 10 ^ e - -x) := by ring
    rw [this, abs_neg]
    exact hfin
  · rw [if_neg (by simpa using hs)]
    rw [abs_of_nonneg (not_lt.1 hs)] at hfin ⊢
    exact hfin

theorem expText_word (plus : Bool) (dec : ℕ) (x : K) : IsWord (expText plus dec x) := by
  refine ⟨by simp [expText, pointText], ?_⟩
  intro c hc
  unfold expText at hc
  simp only at hc
  rcases List.mem_append.1 hc with hc | hc
  · rcases List.mem_append.1 hc with hc | hc
    · unfold signText at hc
      split_ifs at hc
      · simp at hc; subst hc; decide
      · simp at hc; subst hc; decide
      · simp at hc
    · exact pointText_nonblank _ _ c hc
  · rcases List.mem_cons.1 hc with rfl | hc
    · decide
    rcases List.mem_cons.1 hc with rfl | hc
    · split_ifs <;> decide
    have hn := (natText_word (expParts dec x).2.natAbs).2
    split_ifs at hc
    · rcases List.mem_cons.1 hc with rfl | hc
      · decide
      · exact hn c hc
    · exact hn c hc

/-- Example: rounding up to the next power of ten. -/
example : expText true 8 (99999999996 / 100000000000 : ℚ) = "+1.00000000e+00".toList ∧ expText false 10 (-1 / 30000 : ℚ) = "-3.3333333333e-05".toList ∧
    (pyFloat "-3.3333333333e-05".toList : Option ℚ) = some (-33333333333 / 1000000000000000) := by decide +kernel

/-- Example: three coordinates of a POSCAR line. -/
example : pySplit (fixedField 20 10 (-1 / 3 : ℚ) ++ ' ' :: fixedField 20 10 (123456789012345 / 7 : ℚ) ++ ' ' :: fixedField 20 10 (0 : ℚ) ++ ['\n']) =
    ["-0.3333333333".toList, "17636684144620.7142857143".toList, "0.0000000000".toList] ∧
    (pyFloat "17636684144620.7142857143".toList : Option ℚ) = some (176366841446207142857143 / 10000000000) := by decide +kernel

end
end Verif
