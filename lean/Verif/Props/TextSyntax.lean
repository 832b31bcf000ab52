import Verif.Props.Text

/-! # C111: which texts are numbers

`int(s)` and `float(s)` accept exactly the texts of a small grammar; any other field of a file is refused (`ValueError`), not misread. -/

set_option autoImplicit false

namespace Verif

/-! ## Specification -/

/-- A text that is a sign, or nothing; `neg`: it is a minus. -/
def IsSign (sgn : List Char) (neg : Bool) : Prop := (sgn = [] ∧ neg = false) ∨ (sgn = ['+'] ∧ neg = false) ∨ (sgn = ['-'] ∧ neg = true)

/-- The whole number with these decimal digits, the most significant first. -/
def decimalValue (ds : List ℕ) : ℕ := Nat.ofDigits 10 ds.reverse

/-- `s` is a whole number: white space, a sign or nothing, at least one digit, white space. -/
def IntSyntax (s : List Char) (z : ℤ) : Prop :=
  ∃ (b sgn : List Char) (neg : Bool) (ds : List ℕ) (b' : List Char), IsBlankText b ∧ IsBlankText b' ∧ IsSign sgn neg ∧ ds ≠ [] ∧ (∀ d ∈ ds, d < 10) ∧
    s = b ++ (sgn ++ ds.map digitChar) ++ b' ∧ z = if neg then -(decimalValue ds : ℤ) else decimalValue ds

/-- The exponent: nothing, or the letter `e` or `E`, a sign or nothing, and at least one digit. -/
def ExponentSyntax (s : List Char) (e : ℤ) : Prop :=
  (s = [] ∧ e = 0) ∨ ∃ (c : Char) (sgn : List Char) (neg : Bool) (ds : List ℕ), (c = 'e' ∨ c = 'E') ∧ IsSign sgn neg ∧ ds ≠ [] ∧ (∀ d ∈ ds, d < 10) ∧
    s = c :: (sgn ++ ds.map digitChar) ∧ e = if neg then -(decimalValue ds : ℤ) else decimalValue ds

/-- `s` is a decimal number: white space, a sign or nothing, digits, the point and more digits or nothing (together at least one digit), an exponent or nothing, white space. -/
def FloatSyntax {K : Type*} [Field K] (s : List Char) (x : K) : Prop :=
  ∃ (b sgn : List Char) (neg : Bool) (ds fs : List ℕ) (point et : List Char) (e : ℤ) (b' : List Char), IsBlankText b ∧ IsBlankText b' ∧ IsSign sgn neg ∧
    ds ++ fs ≠ [] ∧ (∀ d ∈ ds ++ fs, d < 10) ∧ (point = ['.'] ∨ (point = [] ∧ fs = [])) ∧ ExponentSyntax et e ∧
    s = b ++ (sgn ++ (ds.map digitChar ++ (point ++ (fs.map digitChar ++ et)))) ++ b' ∧
    x = (if neg then -1 else 1) * ((decimalValue (ds ++ fs) : K) / 10 ^ fs.length * 10 ^ e)

/-! ## Parts -/

theorem digitsValue_eq (ds : List ℕ) : digitsValue ds = decimalValue ds := by
  induction ds using List.reverseRecOn with
  | nil => rfl
  | append_singleton l a ih =>
    rw [digitsValue_append, ih, decimalValue, decimalValue, List.reverse_append]
    simp [digitsValue, Nat.ofDigits_cons]; ring

theorem digitVal_some {c : Char} {d : ℕ} (h : digitVal c = some d) : c = digitChar d ∧ d < 10 := by
  unfold digitVal at h
  split at h
  · rename_i hc
    have hd := Option.some.inj h
    refine ⟨?_, by omega⟩
    unfold digitChar
    rw [show 48 + d = c.toNat by omega, Char.ofNat_toNat]
  · cases h

theorem takeDigits_parts : ∀ s : List Char, s = (takeDigits s).1.map digitChar ++ (takeDigits s).2 ∧ ∀ d ∈ (takeDigits s).1, d < 10
  | [] => by simp [takeDigits]
  | c :: cs => by
    obtain ⟨h1, h2⟩ := takeDigits_parts cs
    unfold takeDigits
    cases hc : digitVal c with
    | none => simp
    | some d =>
      obtain ⟨rfl, hd⟩ := digitVal_some hc
      simp only [List.map_cons, List.cons_append, List.mem_cons, forall_eq_or_imp]
      exact ⟨by rw [← h1], hd, h2⟩

theorem takeSign_parts (s : List Char) : ∃ sgn, IsSign sgn (takeSign s).1 ∧ s = sgn ++ (takeSign s).2 := by
  unfold takeSign
  split
  · exact ⟨['-'], by simp [IsSign], rfl⟩
  · exact ⟨['+'], by simp [IsSign], rfl⟩
  · exact ⟨[], by simp [IsSign], rfl⟩

theorem takeWhile_isBlank (s : List Char) : ∀ c ∈ s.takeWhile isBlank, isBlank c = true := by
  induction s with
  | nil => simp
  | cons a s ih =>
    intro c hc
    rw [List.takeWhile_cons] at hc
    split at hc
    · rename_i ha
      rcases List.mem_cons.mp hc with rfl | hc
      · exact ha
      · exact ih c hc
    · cases hc

theorem pyStrip_parts (s : List Char) : ∃ b b', IsBlankText b ∧ IsBlankText b' ∧ s = b ++ pyStrip s ++ b' := by
  refine ⟨s.takeWhile isBlank, ((s.dropWhile isBlank).reverse.takeWhile isBlank).reverse, fun c hc => ?_, fun c hc => ?_, ?_⟩
  · exact takeWhile_isBlank _ c hc
  · exact takeWhile_isBlank _ c (List.mem_reverse.mp hc)
  · unfold pyStrip
    rw [List.append_assoc, ← List.reverse_append, List.takeWhile_append_dropWhile, List.reverse_reverse, List.takeWhile_append_dropWhile]

theorem takeSign_of {sgn : List Char} {neg : Bool} (h : IsSign sgn neg) (rest : List Char) (hr : ∀ c, rest.head? = some c → c ≠ '-' ∧ c ≠ '+') :
    takeSign (sgn ++ rest) = (neg, rest) := by
  rcases h with ⟨rfl, rfl⟩ | ⟨rfl, rfl⟩ | ⟨rfl, rfl⟩
  · rw [List.nil_append]
    unfold takeSign
    split
    · exact absurd rfl (hr '-' rfl).1
    · exact absurd rfl (hr '+' rfl).2
    · rfl
  · rfl
  · rfl

theorem digitChar_sign : ∀ d < 10, digitChar d ≠ '-' ∧ digitChar d ≠ '+' ∧ digitChar d ≠ '.' ∧ digitChar d ≠ 'e' ∧ digitChar d ≠ 'E' := by decide

theorem sign_nonblank {sgn : List Char} {neg : Bool} (h : IsSign sgn neg) : ∀ c ∈ sgn, isBlank c = false := by
  rcases h with ⟨rfl, -⟩ | ⟨rfl, -⟩ | ⟨rfl, -⟩ <;> decide

/-! ## Whole numbers -/

/-- The digits of a whole number, after the sign. -/
theorem signedDigits_iff (s : List Char) (z : ℤ) :
    (if (takeDigits (takeSign s).2).1 = [] ∨ (takeDigits (takeSign s).2).2 ≠ [] then (none : Option ℤ)
      else some (if (takeSign s).1 then -(digitsValue (takeDigits (takeSign s).2).1 : ℤ) else digitsValue (takeDigits (takeSign s).2).1)) = some z ↔
    ∃ (sgn : List Char) (neg : Bool) (ds : List ℕ), IsSign sgn neg ∧ ds ≠ [] ∧ (∀ d ∈ ds, d < 10) ∧ s = sgn ++ ds.map digitChar ∧
      z = if neg then -(decimalValue ds : ℤ) else decimalValue ds := by
  constructor
  · intro h
    split at h
    · cases h
    · rename_i hc
      push Not at hc
      obtain ⟨sgn, hs, hs'⟩ := takeSign_parts s
      obtain ⟨h1, h2⟩ := takeDigits_parts (takeSign s).2
      rw [hc.2, List.append_nil] at h1
      refine ⟨sgn, _, _, hs, hc.1, h2, by rw [← h1]; exact hs', ?_⟩
      rw [← Option.some.inj h, digitsValue_eq]
  · rintro ⟨sgn, neg, ds, hs, hne, hds, rfl, rfl⟩
    have e1 : takeSign (sgn ++ ds.map digitChar) = (neg, ds.map digitChar) := by
      apply takeSign_of hs
      intro c hc
      cases ds with
      | nil => exact absurd rfl hne
      | cons d ds =>
        simp only [List.map_cons, List.head?_cons, Option.some.injEq] at hc
        have := digitChar_sign d (hds d (by simp))
        rw [← hc]; exact ⟨this.1, this.2.1⟩
    have e2 := takeDigits_append ds [] hds (by simp)
    rw [List.append_nil] at e2
    rw [e1]
    simp only [e2, hne, ne_eq, not_true_eq_false, or_self, if_false, digitsValue_eq]

/-- C111: `int` reads exactly the texts that are whole numbers (a sign and white space around are allowed), and gives their value; everything else, such as `1.5`, `12a`, `--3` or
an empty field, is refused. -/
theorem C111_int (s : List Char) (z : ℤ) : pyIntText s = some z ↔ IntSyntax s z := by
  unfold pyIntText
  simp only
  rw [signedDigits_iff]
  constructor
  · rintro ⟨sgn, neg, ds, hs, hne, hds, h, hz⟩
    obtain ⟨b, b', hb, hb', e⟩ := pyStrip_parts s
    exact ⟨b, sgn, neg, ds, b', hb, hb', hs, hne, hds, by rw [← h]; exact e, hz⟩
  · rintro ⟨b, sgn, neg, ds, b', hb, hb', hs, hne, hds, rfl, hz⟩
    refine ⟨sgn, neg, ds, hs, hne, hds, ?_, hz⟩
    apply pyStrip_word _ _ _ hb hb'
    refine ⟨by simp [hne], fun c hc => ?_⟩
    rcases List.mem_append.mp hc with hc | hc
    · exact sign_nonblank hs c hc
    · exact map_digitChar_nonblank ds hds c hc

example : IntSyntax " -042\n".toList (-42) := ⟨[' '], ['-'], true, [0, 4, 2], ['\n'], by unfold IsBlankText; decide, by unfold IsBlankText; decide, by simp [IsSign], by simp, by decide, by decide, by decide⟩

/-! ## Decimal numbers -/

theorem takeExponent_iff (s : List Char) (e : ℤ) : takeExponent s = some e ↔ ExponentSyntax s e := by
  unfold ExponentSyntax
  cases s with
  | nil => simp [takeExponent, eq_comm]
  | cons c cs =>
    rw [takeExponent]
    by_cases hc : c = 'e' ∨ c = 'E'
    · rw [if_pos hc]
      simp only
      rw [signedDigits_iff]
      constructor
      · rintro ⟨sgn, neg, ds, hs, hne, hds, h, hz⟩
        exact Or.inr ⟨c, sgn, neg, ds, hc, hs, hne, hds, by rw [h], hz⟩
      · rintro (⟨h, -⟩ | ⟨c', sgn, neg, ds, -, hs, hne, hds, h, hz⟩)
        · cases h
        · exact ⟨sgn, neg, ds, hs, hne, hds, (List.cons.inj h).2, hz⟩
    · rw [if_neg hc]
      constructor
      · intro h; cases h
      · rintro (⟨h, -⟩ | ⟨c', sgn, neg, ds, hc', -, -, -, h, -⟩)
        · cases h
        · exact absurd ((List.cons.inj h).1 ▸ hc') hc

theorem takeFraction_parts (s : List Char) : ∃ point, (point = ['.'] ∨ (point = [] ∧ (takeFraction s).1 = [])) ∧
    s = point ++ ((takeFraction s).1.map digitChar ++ (takeFraction s).2) ∧ ∀ d ∈ (takeFraction s).1, d < 10 := by
  unfold takeFraction
  split
  · rename_i cs
    obtain ⟨h1, h2⟩ := takeDigits_parts cs
    exact ⟨['.'], Or.inl rfl, by rw [← h1]; rfl, h2⟩
  · exact ⟨[], Or.inr ⟨rfl, rfl⟩, rfl, by simp⟩

/-- The first character of an exponent. -/
theorem exponent_head {et : List Char} {e : ℤ} (h : ExponentSyntax et e) : ∀ c, et.head? = some c → c = 'e' ∨ c = 'E' := by
  rintro c hc
  rcases h with ⟨rfl, -⟩ | ⟨c', sgn, neg, ds, hc', -, -, -, rfl, -⟩
  · cases hc
  · simp only [List.head?_cons, Option.some.injEq] at hc
    exact hc ▸ hc'

theorem exponent_nonblank {et : List Char} {e : ℤ} (h : ExponentSyntax et e) : ∀ c ∈ et, isBlank c = false := by
  rintro c hc
  rcases h with ⟨rfl, -⟩ | ⟨c', sgn, neg, ds, hc', hs, -, hds, rfl, -⟩
  · cases hc
  · rcases List.mem_cons.mp hc with rfl | hc
    · rcases hc' with rfl | rfl <;> decide
    · rcases List.mem_append.mp hc with hc | hc
      · exact sign_nonblank hs c hc
      · exact map_digitChar_nonblank ds hds c hc

section
variable {K : Type*} [Field K]

/-- C111: `float` reads exactly the texts that are decimal numbers (sign, digits, point, digits, exponent, each part optional but at least one digit), and gives their value;
everything else, such as `*****`, `1.2.3`, `1,5` or an empty field, is refused. -/
theorem C111_float (s : List Char) (x : K) : pyFloat s = some x ↔ FloatSyntax s x := by
  constructor
  · intro h
    unfold pyFloat at h
    simp only at h
    split at h
    · cases h
    rename_i hne
    rw [Option.map_eq_some_iff] at h
    obtain ⟨e, he, hx⟩ := h
    obtain ⟨b, b', hb, hb', e0⟩ := pyStrip_parts s
    obtain ⟨sgn, hs, e1⟩ := takeSign_parts (pyStrip s)
    obtain ⟨e2, hd2⟩ := takeDigits_parts (takeSign (pyStrip s)).2
    obtain ⟨point, hp, e3, hd3⟩ := takeFraction_parts (takeDigits (takeSign (pyStrip s)).2).2
    refine ⟨b, sgn, _, (takeDigits (takeSign (pyStrip s)).2).1, (takeFraction (takeDigits (takeSign (pyStrip s)).2).2).1, point,
      (takeFraction (takeDigits (takeSign (pyStrip s)).2).2).2, e, b', hb, hb', hs, ?_, ?_, hp, (takeExponent_iff _ _).mp he, ?_, ?_⟩
    · rwa [ne_eq, List.append_eq_nil_iff]
    · intro d hd
      rcases List.mem_append.mp hd with hd | hd
      exacts [hd2 d hd, hd3 d hd]
    · rw [← e3, ← e2, ← e1]; exact e0
    · rw [← hx, digitsValue_eq]
      cases (takeSign (pyStrip s)).1 <;> simp
  · rintro ⟨b, sgn, neg, ds, fs, point, et, e, b', hb, hb', hs, hne, hds, hp, he, rfl, rfl⟩
    have hd1 : ∀ d ∈ ds, d < 10 := fun d hd => hds d (by simp [hd])
    have hd2 : ∀ d ∈ fs, d < 10 := fun d hd => hds d (by simp [hd])
    have hhead := exponent_head he
    have hstrip : pyStrip (b ++ (sgn ++ (ds.map digitChar ++ (point ++ (fs.map digitChar ++ et)))) ++ b') = sgn ++ (ds.map digitChar ++ (point ++ (fs.map digitChar ++ et))) := by
      apply pyStrip_word _ _ _ hb hb'
      refine ⟨?_, ?_⟩
      · intro h
        simp only [List.append_eq_nil_iff, List.map_eq_nil_iff] at h
        exact hne (by simp [h.2.1, h.2.2.2.1])
      · intro c hc
        simp only [List.mem_append] at hc
        rcases hc with hc | hc | hc | hc | hc
        · exact sign_nonblank hs c hc
        · exact map_digitChar_nonblank ds hd1 c hc
        · rcases hp with rfl | ⟨rfl, -⟩
          · simp only [List.mem_singleton] at hc; subst hc; decide
          · cases hc
        · exact map_digitChar_nonblank fs hd2 c hc
        · exact exponent_nonblank he c hc
    have hexp : ∀ c, et.head? = some c → digitVal c = none := by
      intro c hc
      rcases hhead c hc with rfl | rfl <;> decide
    have hfrac : takeDigits (fs.map digitChar ++ et) = (fs, et) := takeDigits_append fs et hd2 hexp
    have hpoint : ∀ c, (point ++ (fs.map digitChar ++ et)).head? = some c → digitVal c = none := by
      intro c hc
      rcases hp with rfl | ⟨rfl, rfl⟩
      · simp only [List.cons_append, List.head?_cons, Option.some.injEq] at hc; subst hc; decide
      · exact hexp c (by simpa using hc)
    have hdig := takeDigits_append ds _ hd1 hpoint
    have hsign : takeSign (sgn ++ (ds.map digitChar ++ (point ++ (fs.map digitChar ++ et)))) = (neg, ds.map digitChar ++ (point ++ (fs.map digitChar ++ et))) := by
      apply takeSign_of hs
      intro c hc
      cases ds with
      | cons d ds =>
        simp only [List.map_cons, List.cons_append, List.head?_cons, Option.some.injEq] at hc
        have := digitChar_sign d (hd1 d (by simp))
        rw [← hc]; exact ⟨this.1, this.2.1⟩
      | nil =>
        rcases hp with rfl | ⟨rfl, rfl⟩
        · simp only [List.map_nil, List.nil_append, List.cons_append, List.head?_cons, Option.some.injEq] at hc; subst hc; decide
        · exact absurd rfl hne
    have hfr : takeFraction (point ++ (fs.map digitChar ++ et)) = (fs, et) := by
      rcases hp with rfl | ⟨rfl, rfl⟩
      · exact hfrac
      · simp only [List.map_nil, List.nil_append]
        unfold takeFraction
        split
        · rename_i cs
          exact absurd (hhead '.' rfl) (by decide)
        · rfl
    unfold pyFloat
    simp only [hstrip, hsign, hdig, hfr]
    rw [if_neg (by rwa [← List.append_eq_nil_iff]), (takeExponent_iff et e).mpr he, Option.map_some, digitsValue_eq]
    cases neg <;> simp

/-- Examples of both kinds. -/
example : (pyFloat " -1.50E+2\n".toList : Option ℚ) = some (-150) ∧ (pyFloat ".5".toList : Option ℚ) = some (1 / 2) ∧ (pyFloat "7.".toList : Option ℚ) = some 7 ∧
    (pyFloat "1.2.3".toList : Option ℚ) = none ∧ (pyFloat "******".toList : Option ℚ) = none ∧ (pyFloat "1e".toList : Option ℚ) = none ∧ (pyFloat ".".toList : Option ℚ) = none ∧
    pyIntText "1.0".toList = none ∧ pyIntText "3 4".toList = none ∧ pyIntText "+3".toList = some 3 := by decide +kernel

/-- The hypotheses of `FloatSyntax` are met. -/
example : FloatSyntax " -1.50E+2\n".toList (-150 : ℚ) := (C111_float _ _).mp (by decide +kernel)

end
end Verif
