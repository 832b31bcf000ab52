import Verif.Model.ProgressBar
import Verif.Props.Text
import Verif.Props.Double
import Verif.Props.Settings
import Mathlib.Data.Nat.Digits.Lemmas

/-! # C133, C134: progress bars -/

set_option autoImplicit false

namespace Verif

/-- No control characters that move the cursor. -/
def IsPlain (s : List Char) : Prop := ∀ c ∈ s, c ≠ '\r' ∧ c ≠ '\n'

theorem display_append (t : Terminal) (a b : List Char) : t.display (a ++ b) = (t.display a).display b := List.foldl_append

theorem display_plain (s : List Char) (hs : IsPlain s) (d : List (List Char)) (l : List Char) (c : ℕ) (hc : c ≤ l.length) :
    (⟨d, l, c⟩ : Terminal).display s = ⟨d, l.take c ++ s ++ l.drop (c + s.length), c + s.length⟩ := by
  induction s generalizing l c with
  | nil => simp [Terminal.display]
  | cons a s ih =>
    have ha := hs a (by simp)
    have hput : (⟨d, l, c⟩ : Terminal).put a = ⟨d, l.take c ++ a :: l.drop (c + 1), c + 1⟩ := by simp [Terminal.put, ha.1, ha.2]
    have hcons : (⟨d, l, c⟩ : Terminal).display (a :: s) = ((⟨d, l, c⟩ : Terminal).put a).display s := rfl
    rw [hcons, hput, ih (fun x hx => hs x (by simp [hx])) _ _ (by simp; omega)]
    have e1 : (l.take c ++ a :: l.drop (c + 1)).take (c + 1) = l.take c ++ [a] := by
      rw [List.take_append, List.length_take, Nat.min_eq_left hc, List.take_of_length_le (by simp)]
      simp
    have e2 : (l.take c ++ a :: l.drop (c + 1)).drop (c + 1 + s.length) = l.drop (c + (a :: s).length) := by
      rw [List.drop_append, List.length_take, Nat.min_eq_left hc, List.drop_eq_nil_of_le (by simp; omega), List.nil_append,
        show c + 1 + s.length - c = s.length + 1 by omega, List.drop_succ_cons, List.drop_drop]
      congr 1
      simp; omega
    rw [e1, e2]
    simp [Nat.add_assoc, Nat.add_comm 1]

/-- A bar that is not shorter than what is in the line replaces it. -/
theorem display_bar (d : List (List Char)) (l s : List Char) (c : ℕ) (hs : IsPlain s) (h : l.length ≤ s.length) : (⟨d, l, c⟩ : Terminal).display ('\r' :: s) = ⟨d, s, s.length⟩ := by
  have hcons : (⟨d, l, c⟩ : Terminal).display ('\r' :: s) = (⟨d, l, 0⟩ : Terminal).display s := rfl
  rw [hcons, display_plain s hs d l 0 (Nat.zero_le _)]
  simp [h]

theorem display_bars (bodies : List (List Char)) (hp : ∀ s ∈ bodies, IsPlain s) (hm : bodies.Pairwise fun a b => a.length ≤ b.length) (d : List (List Char)) (l : List Char) (c : ℕ)
    (hl : ∀ s ∈ bodies, l.length ≤ s.length) : (⟨d, l, c⟩ : Terminal).display (bodies.flatMap fun s => '\r' :: s) = match bodies.getLast? with | none => ⟨d, l, c⟩ | some s => ⟨d, s, s.length⟩ := by
  induction bodies generalizing l c with
  | nil => rfl
  | cons s bodies ih =>
    rw [List.flatMap_cons, display_append, display_bar d l s c (hp s (by simp)) (hl s (by simp))]
    rw [List.pairwise_cons] at hm
    rw [ih (fun x hx => hp x (by simp [hx])) hm.2 s _ hm.1]
    cases bodies with
    | nil => rfl
    | cons b bodies => rw [List.getLast?_cons_cons, List.getLast?_eq_some_getLast (List.cons_ne_nil b bodies)]

section
variable {K : Type} [Field K] [LinearOrder K] [IsStrictOrderedRing K] [FloorRing K]

/-- Specification: `line` shows the part `p` (from 0 to 1): the label, a bar of 30 characters of which the part `p` is filled, to half a character, and the per cent to half of the second decimal. -/
def ShowsPart (label : List Char) (p : K) (line : List Char) : Prop :=
  ∃ (b e : ℕ) (percent : List Char) (y : K), line = label ++ ": [".toList ++ List.replicate b '#' ++ List.replicate e '-' ++ "] ".toList ++ percent ++ "% ".toList ∧
    b + e = 30 ∧ |(b : K) - 30 * p| ≤ 1 / 2 ∧ pyFloat percent = some y ∧ |y - 100 * p| ≤ 1 / 200

/-- The text of a bar without the status. -/
def barBody (label : List Char) (p : K) : List Char :=
  label ++ ": [".toList ++ (List.replicate (roundEven (30 * p)).toNat '#' ++ List.replicate (30 - (roundEven (30 * p)).toNat) '-') ++ "] ".toList ++ fixedText 2 (p * 100) ++ "% ".toList

theorem progressText_part (label : List Char) (p : K) (h0 : 0 ≤ p) (h1 : p < 1) : progressText label p = '\r' :: barBody label p := by
  simp [progressText, barBody, not_lt.2 h0, not_le.2 h1]

theorem progressText_done (label : List Char) (p : K) (h1 : 1 ≤ p) : progressText label p = '\r' :: (barBody label (1 : K) ++ "Done...\r\n".toList) := by
  have : ¬ p < 0 := not_lt.2 (zero_le_one.trans h1)
  simp [progressText, barBody, this, h1]

theorem roundEven_thirty (p : K) (h0 : 0 ≤ p) (h1 : p ≤ 1) : 0 ≤ roundEven (30 * p) ∧ roundEven (30 * p) ≤ 30 := by
  refine ⟨roundEven_nonneg' (by linarith), ?_⟩
  have := abs_le.1 (roundEven_abs_sub (30 * p))
  have h : (roundEven (30 * p) : K) < 31 := by linarith [this.1]
  have h' : roundEven (30 * p) < 31 := by exact_mod_cast h
  omega

theorem barBody_shows (label : List Char) (p : K) (h0 : 0 ≤ p) (h1 : p ≤ 1) : ShowsPart label p (barBody label p) := by
  obtain ⟨r0, r1⟩ := roundEven_thirty p h0 h1
  refine ⟨(roundEven (30 * p)).toNat, 30 - (roundEven (30 * p)).toNat, fixedText 2 (p * 100), aroundDec 2 (p * 100), by simp [barBody], by omega, ?_, ?_, ?_⟩
  · have hc : (((roundEven (30 * p)).toNat : ℕ) : K) = (roundEven (30 * p) : K) := by
      rw [← Int.cast_natCast, Int.toNat_of_nonneg r0]
    rw [hc, abs_sub_comm]
    exact roundEven_abs_sub _
  · have := C111_fixed_eq 2 (p * 100) [] [] (by intro c hc; simp at hc) (by intro c hc; simp at hc)
    rwa [List.nil_append, List.append_nil] at this
  · have := aroundDec_error 2 (p * 100)
    rw [mul_comm 100 p]
    norm_num at this ⊢
    exact this

theorem barBody_plain (label : List Char) (hl : IsPlain label) (p : K) : IsPlain (barBody label p) := by
  have hf : IsPlain (fixedText 2 (p * 100)) := by
    intro c hc
    have := (fixedText_word 2 (p * 100)).2 c hc
    constructor <;> rintro rfl <;> simp [isBlank] at this
  intro c hc
  simp only [barBody, List.mem_append, List.mem_replicate] at hc
  rcases hc with ((((hc | hc) | hc | hc) | hc) | hc) | hc
  · exact hl c hc
  · revert c; decide
  · rw [hc.2]; decide
  · rw [hc.2]; decide
  · revert c; decide
  · exact hf c hc
  · revert c; decide

theorem roundEven_mono {x y : K} (h : x ≤ y) : roundEven x ≤ roundEven y := by
  have hx := abs_le.1 (roundEven_abs_sub x)
  have hy := abs_le.1 (roundEven_abs_sub y)
  by_contra hlt
  push Not at hlt
  have h1 : (roundEven y : K) + 1 ≤ roundEven x := by exact_mod_cast hlt
  have e : x = y := le_antisymm h (by linarith [hx.1, hy.2])
  subst e
  exact lt_irrefl _ hlt

theorem natText_length_mono {m n : ℕ} (h : m ≤ n) : (natText m).length ≤ (natText n).length := by
  unfold natText
  by_cases hm : m = 0
  · rw [if_pos hm]
    split
    · simp
    · rename_i hn
      have := Nat.digits_ne_nil_iff_ne_zero (b := 10).2 hn
      simp only [List.length_map, List.length_reverse, List.length_singleton]
      exact List.length_pos_iff.2 this
  · rw [if_neg hm, if_neg (by omega)]
    simp only [List.length_map, List.length_reverse]
    exact Nat.le_digits_len_le 10 m n h

theorem fixedText_length_mono (dec : ℕ) {x y : K} (h0 : 0 ≤ x) (h : x ≤ y) : (fixedText dec x).length ≤ (fixedText dec y).length := by
  have hy : 0 ≤ y := h0.trans h
  have e : (roundEven (|x| * 10 ^ dec)).toNat ≤ (roundEven (|y| * 10 ^ dec)).toNat := by
    rw [abs_of_nonneg h0, abs_of_nonneg hy]
    exact Int.toNat_le_toNat (roundEven_mono (mul_le_mul_of_nonneg_right h (by positivity)))
  simp only [fixedText, signText, not_lt.2 h0, not_lt.2 hy, if_false, pointText, List.length_append, List.length_cons, List.length_map, lastDigits_length, List.length_nil, Bool.false_eq_true]
  have := natText_length_mono (Nat.div_le_div_right (c := 10 ^ dec) e)
  omega

theorem barBody_length_mono {label label' : List Char} (hl : label.length ≤ label'.length) {p p' : K} (h0 : 0 ≤ p) (h : p ≤ p') (h1 : p' ≤ 1) : (barBody label p).length ≤ (barBody label' p').length := by
  have r := roundEven_thirty p h0 (h.trans h1)
  have r' := roundEven_thirty p' (h0.trans h) h1
  have := fixedText_length_mono 2 (x := p * 100) (y := p' * 100) (by linarith) (by linarith)
  simp only [barBody, List.length_append, List.length_replicate]
  omega

/-- **C133**: bars with one label for growing parts, beginning on an empty line of the terminal: at every moment the line shows exactly the last part, with nothing left of the bars before; and when the whole is reached, one finished line (the full
bar and `Done...`) has been added and the cursor is at the start of an empty line. -/
theorem C133_screen (label : List Char) (hl : IsPlain label) (parts : List K) (hp : ∀ p ∈ parts, 0 ≤ p ∧ p < 1) (hs : parts.Pairwise (· ≤ ·)) (last : K) (hlast : 1 ≤ last) (before : List (List Char)) :
    (∀ a p b, parts = a ++ p :: b → ∃ line, ShowsPart label p line ∧ (⟨before, [], 0⟩ : Terminal).display ((a ++ [p]).flatMap (progressText label)) = ⟨before, line, line.length⟩) ∧
    ∃ line, ShowsPart label (1 : K) line ∧ (⟨before, [], 0⟩ : Terminal).display ((parts ++ [last]).flatMap (progressText label)) = ⟨before ++ [line ++ "Done...".toList], [], 0⟩ := by
  have hbars : ∀ l : List K, (∀ p ∈ l, 0 ≤ p ∧ p < 1) → l.Pairwise (· ≤ ·) → (⟨before, [], 0⟩ : Terminal).display (l.flatMap (progressText label)) =
      match (l.map (barBody label)).getLast? with | none => ⟨before, [], 0⟩ | some s => ⟨before, s, s.length⟩ := by
    intro l hl1 hl2
    have e : l.flatMap (progressText label) = (l.map (barBody label)).flatMap fun s => '\r' :: s := by
      rw [List.flatMap_map]
      exact List.flatMap_congr fun p hp => progressText_part label p (hl1 p hp).1 (hl1 p hp).2
    rw [e, display_bars]
    · intro s hs
      obtain ⟨p, -, rfl⟩ := List.mem_map.1 hs
      exact barBody_plain label hl p
    · rw [List.pairwise_map]
      exact hl2.imp_of_mem fun {p q} hp hq h => barBody_length_mono le_rfl (hl1 p hp).1 h (hl1 q hq).2.le
    · simp
  constructor
  · rintro a p b rfl
    refine ⟨barBody label p, barBody_shows label p (hp p (by simp)).1 (hp p (by simp)).2.le, ?_⟩
    rw [hbars (a ++ [p]) (fun q hq => hp q (by simp at hq ⊢; tauto)) ?_]
    · simp
    · rw [show a ++ p :: b = (a ++ [p]) ++ b by simp] at hs
      exact (List.pairwise_append.1 hs).1
  · refine ⟨barBody label 1, barBody_shows label 1 zero_le_one le_rfl, ?_⟩
    rw [List.flatMap_append, display_append, hbars parts hp hs]
    have hfin : ∀ (l : List Char) (c : ℕ), l.length ≤ (barBody label (1 : K)).length → (⟨before, l, c⟩ : Terminal).display ([last].flatMap (progressText label)) = ⟨before ++ [barBody label (1 : K) ++ "Done...".toList], [], 0⟩ := by
      intro l c hlen
      have e : [last].flatMap (progressText label) = ('\r' :: (barBody label (1 : K) ++ "Done...".toList)) ++ "\r\n".toList := by
        simp [progressText_done label last hlast]
      rw [e, display_append, display_bar before l _ c ?_ (by simp; omega)]
      · rfl
      · intro c hc
        rcases List.mem_append.1 hc with hc | hc
        · exact barBody_plain label hl 1 c hc
        · have hd : ∀ c ∈ "Done...".toList, c ≠ '\r' ∧ c ≠ '\n' := by decide
          exact hd c hc
    cases hg : (parts.map (barBody label)).getLast? with
    | none => exact hfin _ _ (by simp)
    | some s =>
      refine hfin _ _ ?_
      obtain ⟨p, hpm, rfl⟩ := List.mem_map.1 (List.mem_of_getLast? hg)
      exact barBody_length_mono le_rfl (hp p hpm).1 (hp p hpm).2.le le_rfl

/-- **C133** (spectra): for any number of columns, the bar of a power spectrum shows after each column the part of the columns that is done, and ends with one finished line. -/
theorem C133_spectra (label : List Char) (hl : IsPlain label) (m : ℕ) (hm : 0 < m) (before : List (List Char)) :
    (∀ k < m, ∃ line, ShowsPart label ((k : K) / m) line ∧ (⟨before, [], 0⟩ : Terminal).display (((spectraProgress m : List K).take (k + 1)).flatMap (progressText label)) = ⟨before, line, line.length⟩) ∧
    ∃ line, ShowsPart label (1 : K) line ∧ (⟨before, [], 0⟩ : Terminal).display ((spectraProgress m : List K).flatMap (progressText label)) = ⟨before ++ [line ++ "Done...".toList], [], 0⟩ := by
  have hmK : (0 : K) < m := by exact_mod_cast hm
  have e : (spectraProgress m : List K) = (List.range m).map (fun k : ℕ => (k : K) / m) ++ [1] := by
    have h1 : (spectraProgress m : List K) = (List.range (m + 1)).map fun k : ℕ => (k : K) / m := by
      rw [spectraProgress, List.range_succ_eq_map, List.map_cons, List.map_map]
      simp [Function.comp_def]
    rw [h1, List.range_succ, List.map_append, List.map_singleton, div_self hmK.ne']
  have hp : ∀ p ∈ (List.range m).map (fun k : ℕ => (k : K) / m), 0 ≤ p ∧ p < 1 := by
    intro p hp
    obtain ⟨k, hk, rfl⟩ := List.mem_map.1 hp
    refine ⟨by positivity, (div_lt_one hmK).2 ?_⟩
    exact_mod_cast List.mem_range.1 hk
  have hs : ((List.range m).map (fun k : ℕ => (k : K) / m)).Pairwise (· ≤ ·) := by
    rw [List.pairwise_map]
    refine List.pairwise_lt_range.imp fun {i j} h => div_le_div_of_nonneg_right ?_ hmK.le
    exact_mod_cast h.le
  obtain ⟨h1, h2⟩ := C133_screen label hl _ hp hs (1 : K) le_rfl before
  rw [e]
  refine ⟨fun k hk => ?_, h2⟩
  have hsplit : (List.range m).map (fun k : ℕ => (k : K) / m) = (List.range k).map (fun k : ℕ => (k : K) / m) ++ ((k : K) / m) :: ((List.range m).drop (k + 1)).map (fun k : ℕ => (k : K) / m) := by
    conv_lhs => rw [← List.take_append_drop k (List.range m)]
    rw [List.map_append, List.take_range, Nat.min_eq_left hk.le, List.drop_eq_getElem_cons (by simpa using hk)]
    simp
  obtain ⟨line, ha, hb⟩ := h1 _ _ _ hsplit
  refine ⟨line, ha, ?_⟩
  rw [← hb]
  congr 2
  rw [hsplit, List.append_assoc, List.cons_append, List.take_append]
  simp

/-- **C133** (test trajectory): for every total time and time step, the bar shows the part of the time that is done, never goes back, and ends with one finished line, with the last frame. -/
theorem C133_test (totalTime timeStep : K) (hT : 0 < totalTime) (ht : 0 < timeStep) (before : List (List Char)) :
    ∃ line, ShowsPart "generating".toList (1 : K) line ∧
      (⟨before, [], 0⟩ : Terminal).display ((testProgress totalTime timeStep).flatMap (progressText "generating".toList)) = ⟨before ++ [line ++ "Done...".toList], [], 0⟩ ∧
      (testProgress totalTime timeStep).length = (arange 0 totalTime timeStep).length + 1 ∧
      ∀ k < (arange 0 totalTime timeStep).length, ∃ line, ShowsPart "generating".toList ((k : K) * timeStep / totalTime) line ∧
        (⟨before, [], 0⟩ : Terminal).display (((testProgress totalTime timeStep).take (k + 1)).flatMap (progressText "generating".toList)) = ⟨before, line, line.length⟩ := by
  obtain ⟨n, hn⟩ : ∃ n, ⌈totalTime / timeStep⌉.toNat = n + 1 := by
    have : 0 < ⌈totalTime / timeStep⌉ := Int.ceil_pos.2 (div_pos hT ht)
    exact ⟨⌈totalTime / timeStep⌉.toNat - 1, by omega⟩
  have hc : ⌈totalTime / timeStep⌉ = (n + 1 : ℕ) := by omega
  rw [Int.ceil_eq_iff] at hc
  have hlo : (n : K) * timeStep < totalTime := by
    have := (lt_div_iff₀ ht).1 hc.1
    push_cast at this
    linarith
  have hhi : totalTime ≤ (n + 1 : K) * timeStep := by
    have := (div_le_iff₀ ht).1 hc.2
    push_cast at this
    linarith
  have har : arange 0 totalTime timeStep = (List.range (n + 1)).map fun k : ℕ => (k : K) * timeStep := by
    unfold arange
    rw [sub_zero, hn]
    simp
  have e : testProgress totalTime timeStep = (List.range (n + 1)).map (fun k : ℕ => (k : K) * timeStep / totalTime) ++ [((n + 1 : ℕ) : K) * timeStep / totalTime] := by
    have h1 : testProgress totalTime timeStep = (List.range (n + 2)).map fun k : ℕ => (k : K) * timeStep / totalTime := by
      rw [testProgress, har, show n + 2 = (n + 1) + 1 from rfl, List.range_succ_eq_map (n := n + 1), List.map_cons, List.map_map, List.map_map]
      congr 1
      · simp
      · refine List.map_congr_left fun k _ => ?_
        simp only [Function.comp]
        push_cast
        ring
    rw [h1, List.range_succ, List.map_append, List.map_singleton]
  have hp : ∀ p ∈ (List.range (n + 1)).map (fun k : ℕ => (k : K) * timeStep / totalTime), 0 ≤ p ∧ p < 1 := by
    intro p hp
    obtain ⟨k, hk, rfl⟩ := List.mem_map.1 hp
    have hk' : (k : K) ≤ n := by exact_mod_cast Nat.lt_succ_iff.1 (List.mem_range.1 hk)
    exact ⟨by positivity, (div_lt_one hT).2 ((mul_le_mul_of_nonneg_right hk' ht.le).trans_lt hlo)⟩
  have hs : ((List.range (n + 1)).map (fun k : ℕ => (k : K) * timeStep / totalTime)).Pairwise (· ≤ ·) := by
    rw [List.pairwise_map]
    refine List.pairwise_lt_range.imp fun {i j} h => div_le_div_of_nonneg_right (mul_le_mul_of_nonneg_right ?_ ht.le) hT.le
    exact_mod_cast h.le
  have hlast : (1 : K) ≤ ((n + 1 : ℕ) : K) * timeStep / totalTime := by
    rw [le_div_iff₀ hT]
    push_cast
    linarith
  obtain ⟨h1, line, h2, h3⟩ := C133_screen "generating".toList (by unfold IsPlain; decide) _ hp hs _ hlast before
  rw [e]
  refine ⟨line, h2, h3, by rw [har]; simp, fun k hk => ?_⟩
  rw [har, List.length_map, List.length_range] at hk
  have hsplit : (List.range (n + 1)).map (fun k : ℕ => (k : K) * timeStep / totalTime) =
      (List.range k).map (fun k : ℕ => (k : K) * timeStep / totalTime) ++ ((k : K) * timeStep / totalTime) :: ((List.range (n + 1)).drop (k + 1)).map (fun k : ℕ => (k : K) * timeStep / totalTime) := by
    conv_lhs => rw [← List.take_append_drop k (List.range (n + 1))]
    rw [List.map_append, List.take_range, Nat.min_eq_left hk.le, List.drop_eq_getElem_cons (by simpa using hk)]
    simp
  obtain ⟨line, ha, hb⟩ := h1 _ _ _ hsplit
  refine ⟨line, ha, ?_⟩
  rw [← hb]
  congr 2
  rw [hsplit, List.append_assoc, List.cons_append, List.take_append]
  simp

/-- **C134** (LAMMPS, part): if the total time is a multiple of the sampling time, the bars end with one finished line, and the bar drawn before step `k + 1` of `n` shows the part `k + 1` of `n`. Missing: what is shown should be what has been run,
and other total times (`C134_lammps_violated`). -/
theorem C134_lammps_partial (n : ℕ) (hn : 0 < n) (timeStep : K) (ht : 0 < timeStep) (samplingInterval : ℕ) (hs : 0 < samplingInterval) (before : List (List Char)) :
    (lammpsProgress (n * timeStep * samplingInterval) timeStep samplingInterval).map Prod.snd = 0 :: List.range n ∧
    (∀ k ≤ n, ((lammpsProgress (n * timeStep * samplingInterval) timeStep samplingInterval).map Prod.fst)[k]? = some ((k : K) / n)) ∧
    ∃ line, ShowsPart "lammps".toList (1 : K) line ∧
      (⟨before, [], 0⟩ : Terminal).display (((lammpsProgress (n * timeStep * samplingInterval) timeStep samplingInterval).map Prod.fst).flatMap (progressText "lammps".toList)) = ⟨before ++ [line ++ "Done...".toList], [], 0⟩ := by
  have hsK : (0 : K) < samplingInterval := by exact_mod_cast hs
  have hnK : (0 : K) < n := by exact_mod_cast hn
  have e1 : (n * timeStep * samplingInterval : K) / timeStep / samplingInterval = n := by field_simp
  have e2 : pyInt (n : K) = n := by simp [pyInt]
  have e : (lammpsProgress (n * timeStep * samplingInterval : K) timeStep samplingInterval).map Prod.fst = spectraProgress n := by
    simp only [lammpsProgress, e1, e2, spectraProgress, List.map_cons, List.map_map, Int.toNat_natCast]
    congr 1
    refine List.map_congr_left fun i _ => ?_
    simp only [Function.comp]
    field_simp
  refine ⟨?_, fun k hk => ?_, ?_⟩
  · simp only [lammpsProgress, e1, e2, Int.toNat_natCast, List.map_cons, List.map_map]
    congr 1
    simp [Function.comp_def]
  · rw [e, spectraProgress]
    cases k with
    | zero => simp
    | succ k => simp [List.getElem?_range (show k < n by omega)]
  · rw [e]
    exact (C133_spectra "lammps".toList (by unfold IsPlain; decide) n hn before).2

/-- **C134** (scan of the coefficients, part): if all fits are good and the numbers grow, with steps of two or more up to the last, the scan of a column ends with one finished line. Missing: failed fits and steps of one (`C134_scan_violated`). -/
theorem C134_scan_partial (init : List ℕ) (last : ℕ) (hpos : 0 < last) (hs : init.Pairwise (· ≤ ·)) (hi : ∀ n ∈ init, n + 1 < last) (before : List (List Char)) :
    ∃ line, ShowsPart "M.E. Method".toList (1 : K) line ∧ (⟨before, [], 0⟩ : Terminal).display (scanOutput K (init ++ [last]) fun _ => .good) = ⟨before ++ [line ++ "Done...".toList], [], 0⟩ := by
  have hK : (0 : K) < last := by exact_mod_cast hpos
  have hlab : IsPlain "M.E. Method".toList := by unfold IsPlain; decide
  have hlab' : IsPlain "ME Coeff.".toList := by unfold IsPlain; decide
  have hpart : ∀ n ∈ init, 0 ≤ ((n + 1 : ℕ) : K) / last ∧ ((n + 1 : ℕ) : K) / last < 1 := by
    intro n hn
    refine ⟨by positivity, (div_lt_one hK).2 ?_⟩
    exact_mod_cast hi n hn
  have e : scanOutput K (init ++ [last]) (fun _ => .good) =
      ((barBody "ME Coeff.".toList (0 : K) :: init.map fun n => barBody "M.E. Method".toList (((n + 1 : ℕ) : K) / last)).flatMap fun s => '\r' :: s) ++
        (('\r' :: (barBody "M.E. Method".toList (1 : K) ++ "Done...".toList)) ++ "\r\n".toList) := by
    have hlast : (1 : K) ≤ ((last + 1 : ℕ) : K) / last := by
      rw [le_div_iff₀ hK]; push_cast; linarith
    rw [scanOutput, progressText_part _ 0 le_rfl zero_lt_one, List.flatMap_append]
    rw [List.flatMap_cons (f := fun s => '\r' :: s), List.flatMap_map]
    have e1 : (init.flatMap fun n => progressText "M.E. Method".toList (((n + 1 : ℕ) : K) / ((init ++ [last]).getLastD 0 : ℕ))) =
        init.flatMap fun n => '\r' :: barBody "M.E. Method".toList (((n + 1 : ℕ) : K) / last) := by
      refine List.flatMap_congr fun n hn => ?_
      have : (init ++ [last]).getLastD 0 = last := by simp [List.getLastD_eq_getLast?]
      rw [this]
      exact progressText_part _ _ (hpart n hn).1 (hpart n hn).2
    have e2 : ([last].flatMap fun n => progressText "M.E. Method".toList (((n + 1 : ℕ) : K) / ((init ++ [last]).getLastD 0 : ℕ))) =
        '\r' :: (barBody "M.E. Method".toList (1 : K) ++ "Done...\r\n".toList) := by
      have : (init ++ [last]).getLastD 0 = last := by simp [List.getLastD_eq_getLast?]
      rw [this, List.flatMap_singleton]
      exact progressText_done _ _ hlast
    rw [e1, e2]
    simp
  refine ⟨barBody "M.E. Method".toList 1, barBody_shows _ 1 zero_le_one le_rfl, ?_⟩
  rw [e, display_append, display_bars]
  · have hfin : ∀ (l : List Char) (c : ℕ), l.length ≤ (barBody "M.E. Method".toList (1 : K)).length →
        (⟨before, l, c⟩ : Terminal).display (('\r' :: (barBody "M.E. Method".toList (1 : K) ++ "Done...".toList)) ++ "\r\n".toList) = ⟨before ++ [barBody "M.E. Method".toList (1 : K) ++ "Done...".toList], [], 0⟩ := by
      intro l c hlen
      rw [display_append, display_bar before l _ c ?_ (by rw [List.length_append]; omega)]
      · rfl
      · intro c hc
        rcases List.mem_append.1 hc with hc | hc
        · exact barBody_plain _ hlab 1 c hc
        · have hd : ∀ c ∈ "Done...".toList, c ≠ '\r' ∧ c ≠ '\n' := by decide
          exact hd c hc
    cases hg : (barBody "ME Coeff.".toList (0 : K) :: init.map fun n => barBody "M.E. Method".toList (((n + 1 : ℕ) : K) / last)).getLast? with
    | none => exact hfin _ _ (by simp)
    | some s =>
      refine hfin _ _ ?_
      rcases List.mem_cons.1 (List.mem_of_getLast? hg) with rfl | hm
      · exact barBody_length_mono (by decide) le_rfl zero_le_one le_rfl
      · obtain ⟨n, hn, rfl⟩ := List.mem_map.1 hm
        exact barBody_length_mono le_rfl (hpart n hn).1 (hpart n hn).2.le le_rfl
  · intro s hsm
    rcases List.mem_cons.1 hsm with rfl | hm
    · exact barBody_plain _ hlab' 0
    · obtain ⟨n, -, rfl⟩ := List.mem_map.1 hm
      exact barBody_plain _ hlab _
  · rw [List.pairwise_cons]
    constructor
    · intro s hm
      obtain ⟨n, hn, rfl⟩ := List.mem_map.1 hm
      exact barBody_length_mono (by decide) le_rfl (hpart n hn).1 (hpart n hn).2.le
    · rw [List.pairwise_map]
      refine hs.imp_of_mem fun {a b} ha hb h => barBody_length_mono le_rfl (hpart a ha).1 (div_le_div_of_nonneg_right ?_ hK.le) (hpart b hb).2.le
      exact_mod_cast Nat.succ_le_succ h
  · simp

end

/-- **C133** (double precision): the quotient calculated for column `k` of `m` reaches 1, so that the line is finished, exactly for the last column. -/
theorem C133_double (m k : ℕ) (hm : m ≤ 2 ^ 53) (hk : k ≤ m) (hpos : 0 < m) : 1 ≤ fl ((k : ℚ) / m) ↔ k = m := by
  have hmQ : (0 : ℚ) < m := by exact_mod_cast hpos
  constructor
  · intro h
    by_contra hne
    have hlt : k + 1 ≤ m := by omega
    have hg : IsDouble (1 - 1 / 2 ^ 53 : ℚ) := ⟨2 ^ 53 - 1, -53, by norm_num, by norm_num⟩
    have hle : (k : ℚ) / m ≤ 1 - 1 / 2 ^ 53 := by
      rw [div_le_iff₀ hmQ]
      have h1 : (k : ℚ) + 1 ≤ m := by exact_mod_cast hlt
      have h2 : (m : ℚ) ≤ 2 ^ 53 := by exact_mod_cast hm
      have h3 : (m : ℚ) / 2 ^ 53 ≤ 1 := (div_le_one (by positivity)).2 h2
      have : (1 - 1 / 2 ^ 53 : ℚ) * m = m - m / 2 ^ 53 := by ring
      rw [this]
      linarith
    have := fl_le_double (by positivity) hg hle
    have h53 : (0 : ℚ) < 1 / 2 ^ 53 := by positivity
    linarith
  · rintro rfl
    rw [div_self hmQ.ne', fl_of_double ⟨1, 0, by norm_num, by norm_num⟩]

/-- **C134, violated for LAMMPS**: the bar is drawn before the step that it counts, so that `Done...` is shown while the last step is still to be run; and if the total time is not a multiple of the sampling, the line is never finished. -/
theorem C134_lammps_violated :
    ((lammpsProgress (K := ℚ) 3 1 1).map Prod.snd = [0, 0, 1, 2] ∧ ((⟨[], [], 0⟩ : Terminal).display ((lammpsProgress (K := ℚ) 3 1 1).flatMap fun p => progressText "lammps".toList p.1)).lines.length = 1) ∧
    ((⟨[], [], 0⟩ : Terminal).display ((lammpsProgress (K := ℚ) (5 / 2) 1 1).flatMap fun p => progressText "lammps".toList p.1)).line = "lammps: [########################------] 80.00% ".toList := by decide +kernel

/-- **C134, violated for the scan of the coefficients**: for the numbers 1 to 3 there are two finished lines; if the last fit fails, the line is not finished and the warning stands behind the bar; and the next column begins on top of the rest of it. -/
theorem C134_scan_violated :
    ((⟨[], [], 0⟩ : Terminal).display (scanOutput ℚ [1, 2, 3] fun _ => .good)).lines.length = 2 ∧
    ((⟨[], [], 0⟩ : Terminal).display (scanOutput ℚ [10, 20] fun n => if n = 20 then .bad else .good)).lines = ["M.E. Method: [################--------------] 55.00% Warning: Fitting error, skipping point 20".toList] := by decide +kernel

/-- Three columns: what the terminal shows. -/
example : (⟨[], [], 0⟩ : Terminal).display ((spectraProgress (K := ℚ) 3).flatMap (progressText "FFT".toList)) = ⟨["FFT: [##############################] 100.00% Done...".toList], [], 0⟩ ∧
    (⟨[], [], 0⟩ : Terminal).display (((spectraProgress (K := ℚ) 3).take 2).flatMap (progressText "FFT".toList)) = ⟨[], "FFT: [##########--------------------] 33.33% ".toList, 45⟩ := by decide +kernel

end Verif
