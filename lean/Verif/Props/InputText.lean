import Verif.Model.InputText
import Verif.Props.Inputs
import Verif.Props.OutcarText

/-! # C113: an input file of any sections in any order -/

set_option autoImplicit false
set_option linter.unusedSectionVars false

namespace Verif

section
variable {R : Type}

/-- The keywords of the input file. -/
def inputKeywords : List String :=
  ["STRUCTURE FILE OUTCAR", "STRUCTURE FILE POSCAR", "FORCE SETS", "FORCE CONSTANTS", "PRIMITIVE MATRIX", "SUPERCELL MATRIX", "BANDS", "MESH PHONOPY"]

/-- Specification: a comment, or a line without keywords (numbers, a file name, a blank line, ...). -/
def QuietLine (l : Line) : Prop := l.head? = some '#' ∨ ∀ kw ∈ inputKeywords, ¬ kw.toList <:+: l

/-- Specification: a line with this keyword and no other. -/
def HeaderLine (kw : String) (l : Line) : Prop := l.head? ≠ some '#' ∧ kw.toList <:+: l ∧ ∀ kw' ∈ inputKeywords, kw' ≠ kw → ¬ kw'.toList <:+: l

/-- Specification: the sections of an input file with what they say; `other` is a comment or a line outside all sections. -/
inductive InputSection (R : Type) where
  | other (l : Line)
  | outcar (head value : Line) (name : Line)
  | poscar (head value : Line) (name : Line)
  | forceSets (head value : Line) (name : Line)
  | forceConstants (head value : Line) (name : Line)
  | primitive (head a b c : Line) (m : Fin 3 → Fin 3 → R)
  | supercell (head a b c : Line) (m : Fin 3 → Fin 3 → ℤ)
  | bands (head : Line) (rows : List (Line × BandSpec R))
  | mesh (head value : Line) (m : List ℤ)

/-- The lines of a section. -/
def InputSection.lines : InputSection R → List Line
  | other l => [l]
  | outcar h v _ | poscar h v _ | forceSets h v _ | forceConstants h v _ | mesh h v _ => [h, v]
  | primitive h a b c _ | supercell h a b c _ => [h, a, b, c]
  | bands h rows => h :: rows.map Prod.fst

/-- What a section changes. -/
def InputSection.apply (p : InputParameters R) : InputSection R → InputParameters R
  | other _ => p
  | outcar _ _ name => { p with outcar := some name }
  | poscar _ _ name => { p with poscar := name }
  | forceSets _ _ name => { p with forceSets := some name }
  | forceConstants _ _ name => { p with forceConstants := some name }
  | primitive _ _ _ _ m => { p with primitiveMatrix := some [[m 0 0, m 0 1, m 0 2], [m 1 0, m 1 1, m 1 2], [m 2 0, m 2 1, m 2 2]] }
  | supercell _ _ _ _ m => { p with supercellMatrix := some [[m 0 0, m 0 1, m 0 2], [m 1 0, m 1 1, m 1 2], [m 2 0, m 2 1, m 2 2]] }
  | bands _ rows =>
    { p with ranges := some (rows.map (·.2.row)), labels := if rows.filterMap (·.2.labels) = [] then none else some (rows.filterMap (·.2.labels)) }
  | mesh _ _ m => { p with mesh := some m }

/-- Specification: the section is well written, and its lines say what is claimed. -/
def InputSection.Ok (c : InputCodec R) : InputSection R → Prop
  | other l => QuietLine l
  | outcar h v name => HeaderLine "STRUCTURE FILE OUTCAR" h ∧ QuietLine v ∧ c.strip v = name
  | poscar h v name => HeaderLine "STRUCTURE FILE POSCAR" h ∧ QuietLine v ∧ c.strip v = name
  | forceSets h v name => HeaderLine "FORCE SETS" h ∧ QuietLine v ∧ c.strip v = name
  | forceConstants h v name => HeaderLine "FORCE CONSTANTS" h ∧ QuietLine v ∧ c.strip v = name
  | primitive h x y z m => HeaderLine "PRIMITIVE MATRIX" h ∧ (QuietLine x ∧ QuietLine y ∧ QuietLine z) ∧
      c.floats x = some [m 0 0, m 0 1, m 0 2] ∧ c.floats y = some [m 1 0, m 1 1, m 1 2] ∧ c.floats z = some [m 2 0, m 2 1, m 2 2]
  | supercell h x y z m => HeaderLine "SUPERCELL MATRIX" h ∧ (QuietLine x ∧ QuietLine y ∧ QuietLine z) ∧
      c.ints x = some [m 0 0, m 0 1, m 0 2] ∧ c.ints y = some [m 1 0, m 1 1, m 1 2] ∧ c.ints z = some [m 2 0, m 2 1, m 2 2]
  | bands h rows => HeaderLine "BANDS" h ∧ ∀ r ∈ rows, QuietLine r.1 ∧ r.1.head? ≠ some '#' ∧ IsBandLine c r.1 r.2
  | mesh h v m => HeaderLine "MESH PHONOPY" h ∧ QuietLine v ∧ c.ints v = some m

/-- Specification: the section may be followed by these lines: only a list of segments asks for something, the next line must not continue it and must not be `MESH PHONOPY`. -/
def InputSection.Before (c : InputCodec R) (rest : List Line) : InputSection R → Prop
  | bands _ _ => ∀ l, rest.head? = some l → IsBandEnd c l ∧ ¬ "MESH PHONOPY".toList <:+: l
  | _ => True

/-- Specification: the sections of a file. -/
def InputDocument (c : InputCodec R) : List (InputSection R) → Prop
  | [] => True
  | s :: ss => s.Ok c ∧ s.Before c (ss.flatMap (·.lines)) ∧ InputDocument c ss

theorem hasKeyword_no {kw l : Line} (h : ¬ kw <:+: l) : hasKeyword kw l = false := by
  rw [Bool.eq_false_iff]
  exact fun hk => h ((hasKeyword_iff kw l).1 hk)

theorem inputLine_quiet (c : InputCodec R) (file : List Line) (s : InputParameters R) (i : ℕ) (l : Line) (hi : file[i]? = some l) (h : QuietLine l) :
    inputLine c file s i = some s := by
  unfold inputLine
  rw [hi]
  simp only
  rcases h with h | h
  · rw [if_pos h]
  · split_ifs
    · rfl
    · have k : ∀ kw ∈ inputKeywords, hasKeyword kw.toList l = false := fun kw hk => hasKeyword_no (h kw hk)
      simp only [inputSections, inputBandsMesh, onKeyword, k _ (show "STRUCTURE FILE OUTCAR" ∈ inputKeywords by simp [inputKeywords]),
        k _ (show "STRUCTURE FILE POSCAR" ∈ inputKeywords by simp [inputKeywords]), k _ (show "FORCE SETS" ∈ inputKeywords by simp [inputKeywords]),
        k _ (show "FORCE CONSTANTS" ∈ inputKeywords by simp [inputKeywords]), k _ (show "PRIMITIVE MATRIX" ∈ inputKeywords by simp [inputKeywords]),
        k _ (show "SUPERCELL MATRIX" ∈ inputKeywords by simp [inputKeywords]), k _ (show "BANDS" ∈ inputKeywords by simp [inputKeywords]),
        k _ (show "MESH PHONOPY" ∈ inputKeywords by simp [inputKeywords]), Option.bind_some, Bool.false_eq_true, if_false]

theorem quiet_run (c : InputCodec R) (file : List Line) (s : InputParameters R) : ∀ (ls pre post : List Line), file = pre ++ ls ++ post → (∀ l ∈ ls, QuietLine l) →
    (List.range' pre.length ls.length).foldlM (inputLine c file) s = some s
  | [], _, _, _, _ => rfl
  | l :: ls, pre, post, hf, h => by
    have hi : file[pre.length]? = some l := by rw [hf]; simp
    rw [List.length_cons, List.range'_succ, List.foldlM_cons, inputLine_quiet c file s _ l hi (h l (by simp))]
    have := quiet_run c file s ls (pre ++ [l]) post (by rw [hf]; simp) fun x hx => h x (by simp [hx])
    rw [List.length_append] at this
    exact this

/-- Which keywords a header line has. -/
theorem header_keys {kw : String} {l : Line} (h : HeaderLine kw l) : (hasKeyword kw.toList l = true) ∧ ∀ kw' ∈ inputKeywords, kw' ≠ kw → hasKeyword kw'.toList l = false :=
  ⟨(hasKeyword_iff _ _).2 h.2.1, fun kw' h1 h2 => hasKeyword_no (h.2.2 kw' h1 h2)⟩

/-- The variable `line` after the loop over the segments. -/
theorem bandsLoop_line (c : InputCodec R) (rest : List Line) (hrest : ∀ l, rest.head? = some l → IsBandEnd c l) :
    ∀ (rows : List (Line × BandSpec R)) (line : Line), (∀ p ∈ rows, IsBandLine c p.1 p.2) →
      (∃ l, rest.head? = some l ∧ (bandsLoop c line (rows.map (·.1) ++ rest)).2.2.1 = l) ∨ (bandsLoop c line (rows.map (·.1) ++ rest)).2.2.1 = line ∨
      ∃ p ∈ rows, (bandsLoop c line (rows.map (·.1) ++ rest)).2.2.1 <+: p.1
  | [], line, _ => by
    cases rest with
    | nil => exact Or.inr (Or.inl rfl)
    | cons l rest' =>
      left
      refine ⟨l, rfl, ?_⟩
      rw [List.map_nil, List.nil_append, bandsLoop_end c line l rest' (hrest l rfl)]
  | p :: rows, line, h => by
    have hp := h p List.mem_cons_self
    have ih := fun line => bandsLoop_line c rest hrest rows line fun q hq => h q (List.mem_cons_of_mem _ hq)
    obtain ⟨l', hpre, heq⟩ : ∃ l', l' <+: p.1 ∧ (bandsLoop c line ((p :: rows).map (·.1) ++ rest)).2.2.1 = (bandsLoop c l' (rows.map (·.1) ++ rest)).2.2.1 := by
      rw [List.map_cons, List.cons_append]
      rcases hp with ⟨-, h2⟩ | ⟨q, la, lb, hl, hq, hla, hlb, ha, hb, hlen, hf, hlab⟩
      · exact ⟨p.1, List.prefix_refl _, by rw [bandsLoop_row c line p.1 p.2.row _ h2]⟩
      · have hs : p.1.splitOn ':' = [q, la ++ ',' :: lb] := by
          rw [hl, splitOn_pair ':' q _ hq]
          simp [hla, hlb]
        refine ⟨q, by rw [hl]; exact List.prefix_append _ _, ?_⟩
        match hrow : p.2.row, hlen, hf with
        | [x1, x2, x3, x4, x5, x6], _, hf =>
          rw [bandsLoop]
          simp only [hs, hf]
    rcases ih l' with ⟨l, h1, h2⟩ | h1 | ⟨r, hr, h2⟩
    · exact Or.inl ⟨l, h1, heq.trans h2⟩
    · exact Or.inr (Or.inr ⟨p, by simp, by rw [heq, h1]; exact hpre⟩)
    · exact Or.inr (Or.inr ⟨r, by simp [hr], by rw [heq]; exact h2⟩)

/-- One section is read. -/
theorem section_run (c : InputCodec R) (file pre post : List Line) (sec : InputSection R) (hf : file = pre ++ sec.lines ++ post) (h : sec.Ok c) (hb : sec.Before c post) (s : InputParameters R) :
    (List.range' pre.length sec.lines.length).foldlM (inputLine c file) s = some (sec.apply s) := by
  -- a section is its first line and quiet lines
  have key : ∀ (head : Line) (data : List Line) (s' : InputParameters R), sec.lines = head :: data → (∀ l ∈ data, QuietLine l) → inputLine c file s pre.length = some s' →
      (List.range' pre.length sec.lines.length).foldlM (inputLine c file) s = some s' := by
    intro head data s' hl hq h1
    rw [hl, List.length_cons, List.range'_succ, List.foldlM_cons, h1]
    have := quiet_run c file s' data (pre ++ [head]) post (by rw [hf, hl]; simp) hq
    rw [List.length_append] at this
    exact this
  have at0 : ∀ (head : Line) (data : List Line), sec.lines = head :: data → file[pre.length]? = some head ∧ file.drop (pre.length + 1) = data ++ post := by
    intro head data hl
    rw [hf, hl]
    constructor
    · simp
    · rw [List.append_assoc, ← List.drop_drop, List.drop_left]
      simp
  have nth : ∀ (head : Line) (data : List Line) (j : ℕ) (x : Line), sec.lines = head :: data → data[j]? = some x → file[pre.length + j + 1]? = some x := by
    intro head data j x hl hx
    have h1 := (at0 head data hl).2
    have h2 : (file.drop (pre.length + 1))[j]? = some x := by
      rw [h1, List.getElem?_append_left (List.getElem?_eq_some_iff.1 hx).1]
      exact hx
    rw [List.getElem?_drop] at h2
    rw [← h2]
    congr 1
    omega
  have sect : ∀ (head : Line) (kw : String), HeaderLine kw head →
      (∀ kw' ∈ inputKeywords, hasKeyword kw'.toList head = decide (kw' = kw)) := by
    intro head kw hh kw' hk
    by_cases e : kw' = kw
    · subst e; rw [(header_keys hh).1]; simp
    · rw [(header_keys hh).2 kw' hk e]; simp [e]
  have m1 : "STRUCTURE FILE OUTCAR" ∈ inputKeywords := by simp [inputKeywords]
  have m2 : "STRUCTURE FILE POSCAR" ∈ inputKeywords := by simp [inputKeywords]
  have m3 : "FORCE SETS" ∈ inputKeywords := by simp [inputKeywords]
  have m4 : "FORCE CONSTANTS" ∈ inputKeywords := by simp [inputKeywords]
  have m5 : "PRIMITIVE MATRIX" ∈ inputKeywords := by simp [inputKeywords]
  have m6 : "SUPERCELL MATRIX" ∈ inputKeywords := by simp [inputKeywords]
  have m7 : "BANDS" ∈ inputKeywords := by simp [inputKeywords]
  have m8 : "MESH PHONOPY" ∈ inputKeywords := by simp [inputKeywords]
  cases sec with
  | other l =>
    refine key l [] s rfl (by simp) ?_
    exact inputLine_quiet c file s _ l (at0 l [] rfl).1 h
  | outcar hd v name =>
    obtain ⟨hh, hq, hv⟩ := h
    refine key hd [v] _ rfl (by simpa using hq) ?_
    have k := sect hd _ hh
    simp only [inputLine, (at0 hd [v] rfl).1, if_neg hh.1, inputSections, inputBandsMesh, onKeyword, k _ m1, k _ m2, k _ m3, k _ m4, k _ m5, k _ m6, k _ m7, k _ m8]
    have := nth hd [v] 0 v rfl rfl
    simp only [Nat.add_zero] at this
    simp [this, hv, InputSection.apply]
    simp only [inputBandsMesh, onKeyword, k _ m7, k _ m8]
    simp [this, hv]
  | poscar hd v name =>
    obtain ⟨hh, hq, hv⟩ := h
    refine key hd [v] _ rfl (by simpa using hq) ?_
    have k := sect hd _ hh
    simp only [inputLine, (at0 hd [v] rfl).1, if_neg hh.1, inputSections, inputBandsMesh, onKeyword, k _ m1, k _ m2, k _ m3, k _ m4, k _ m5, k _ m6, k _ m7, k _ m8]
    have := nth hd [v] 0 v rfl rfl
    simp only [Nat.add_zero] at this
    simp [this, hv, InputSection.apply]
    simp only [inputBandsMesh, onKeyword, k _ m7, k _ m8]
    simp [this, hv]
  | forceSets hd v name =>
    obtain ⟨hh, hq, hv⟩ := h
    refine key hd [v] _ rfl (by simpa using hq) ?_
    have k := sect hd _ hh
    simp only [inputLine, (at0 hd [v] rfl).1, if_neg hh.1, inputSections, inputBandsMesh, onKeyword, k _ m1, k _ m2, k _ m3, k _ m4, k _ m5, k _ m6, k _ m7, k _ m8]
    have := nth hd [v] 0 v rfl rfl
    simp only [Nat.add_zero] at this
    simp [this, hv, InputSection.apply]
    simp only [inputBandsMesh, onKeyword, k _ m7, k _ m8]
    simp [this, hv]
  | forceConstants hd v name =>
    obtain ⟨hh, hq, hv⟩ := h
    refine key hd [v] _ rfl (by simpa using hq) ?_
    have k := sect hd _ hh
    simp only [inputLine, (at0 hd [v] rfl).1, if_neg hh.1, inputSections, inputBandsMesh, onKeyword, k _ m1, k _ m2, k _ m3, k _ m4, k _ m5, k _ m6, k _ m7, k _ m8]
    have := nth hd [v] 0 v rfl rfl
    simp only [Nat.add_zero] at this
    simp [this, hv, InputSection.apply]
    simp only [inputBandsMesh, onKeyword, k _ m7, k _ m8]
    simp [this, hv]
  | mesh hd v m =>
    obtain ⟨hh, hq, hv⟩ := h
    refine key hd [v] _ rfl (by simpa using hq) ?_
    have k := sect hd _ hh
    simp only [inputLine, (at0 hd [v] rfl).1, if_neg hh.1, inputSections, inputBandsMesh, onKeyword, k _ m1, k _ m2, k _ m3, k _ m4, k _ m5, k _ m6, k _ m7, k _ m8]
    have := nth hd [v] 0 v rfl rfl
    simp only [Nat.add_zero] at this
    simp [this, hv, InputSection.apply]
    simp only [inputBandsMesh, onKeyword, k _ m7, k _ m8]
    simp [this, hv]
  | primitive hd x y z m =>
    obtain ⟨hh, ⟨q1, q2, q3⟩, hx, hy, hz⟩ := h
    refine key hd [x, y, z] _ rfl (by simp [q1, q2, q3]) ?_
    have k := sect hd _ hh
    have hm : readMatrix c.floats file pre.length = some [[m 0 0, m 0 1, m 0 2], [m 1 0, m 1 1, m 1 2], [m 2 0, m 2 1, m 2 2]] := by
      have g0 := nth hd [x, y, z] 0 x rfl rfl
      have g1 := nth hd [x, y, z] 1 y rfl rfl
      have g2 := nth hd [x, y, z] 2 z rfl rfl
      have e : List.range 3 = [0, 1, 2] := rfl
      simp only [readMatrix, e, List.mapM_cons, List.mapM_nil, g0, g1, g2, Option.bind_some, hx, hy, hz]
      simp [toArray]
    simp only [inputLine, (at0 hd [x, y, z] rfl).1, if_neg hh.1, inputSections, inputBandsMesh, onKeyword, k _ m1, k _ m2, k _ m3, k _ m4, k _ m5, k _ m6, k _ m7, k _ m8]
    simp [hm, InputSection.apply]
    simp only [inputBandsMesh, onKeyword, k _ m7, k _ m8]
    simp
  | supercell hd x y z m =>
    obtain ⟨hh, ⟨q1, q2, q3⟩, hx, hy, hz⟩ := h
    refine key hd [x, y, z] _ rfl (by simp [q1, q2, q3]) ?_
    have k := sect hd _ hh
    have hm : readMatrix c.ints file pre.length = some [[m 0 0, m 0 1, m 0 2], [m 1 0, m 1 1, m 1 2], [m 2 0, m 2 1, m 2 2]] := by
      have g0 := nth hd [x, y, z] 0 x rfl rfl
      have g1 := nth hd [x, y, z] 1 y rfl rfl
      have g2 := nth hd [x, y, z] 2 z rfl rfl
      have e : List.range 3 = [0, 1, 2] := rfl
      simp only [readMatrix, e, List.mapM_cons, List.mapM_nil, g0, g1, g2, Option.bind_some, hx, hy, hz]
      simp [toArray]
    simp only [inputLine, (at0 hd [x, y, z] rfl).1, if_neg hh.1, inputSections, inputBandsMesh, onKeyword, k _ m1, k _ m2, k _ m3, k _ m4, k _ m5, k _ m6, k _ m7, k _ m8]
    simp [hm, InputSection.apply]
    simp only [inputBandsMesh, onKeyword, k _ m7, k _ m8]
    simp
  | bands hd rows =>
    obtain ⟨hh, hr⟩ := h
    refine key hd (rows.map Prod.fst) _ rfl (by
      intro l hl
      obtain ⟨p, hp, rfl⟩ := List.mem_map.1 hl
      exact (hr p hp).1) ?_
    have k := sect hd _ hh
    have hdrop := (at0 hd (rows.map Prod.fst) rfl).2
    have hl := bandsLoop_specs c post (fun l rest' e => (hb l (by rw [e]; rfl)).1) rows hd fun p hp => (hr p hp).2.2
    have hline : hasKeyword "MESH PHONOPY".toList (bandsLoop c hd (rows.map Prod.fst ++ post)).2.2.1 = false := by
      rcases bandsLoop_line c post (fun l hl => (hb l hl).1) rows hd (fun p hp => (hr p hp).2.2) with ⟨l, h1, h2⟩ | h1 | ⟨p, hp, h2⟩
      · rw [h2]; exact hasKeyword_no (hb l h1).2
      · rw [h1]; exact (k _ m8).trans (by decide)
      · refine hasKeyword_no fun hi => ?_
        obtain ⟨hq, hc, -⟩ := hr p hp
        rcases hq with hq | hq
        · exact hc hq
        · exact hq _ m8 (hi.trans h2.isInfix)
    simp only [inputLine, (at0 hd (rows.map Prod.fst) rfl).1, if_neg hh.1, inputSections, inputBandsMesh, onKeyword, k _ m1, k _ m2, k _ m3, k _ m4, k _ m5, k _ m6]
    simp [InputSection.apply]
    simp only [inputBandsMesh, onKeyword, k _ m7, hdrop, hl.1, hl.2, hline]
    simp

theorem document_run (c : InputCodec R) (file : List Line) : ∀ (secs : List (InputSection R)) (pre : List Line) (s : InputParameters R), file = pre ++ secs.flatMap (·.lines) → InputDocument c secs →
    (List.range' pre.length (secs.flatMap (·.lines)).length).foldlM (inputLine c file) s = some (secs.foldl (fun p sec => sec.apply p) s)
  | [], _, _, _, _ => rfl
  | sec :: secs, pre, s, hf, ⟨h1, h2, h3⟩ => by
    rw [List.flatMap_cons] at hf
    rw [List.flatMap_cons, List.length_append, List.range'_append_1.symm, List.foldlM_append, section_run c file pre _ sec (by rw [hf]; simp) h1 h2 s]
    have := document_run c file secs (pre ++ sec.lines) (sec.apply s) (by rw [hf]; simp) h3
    rw [List.length_append] at this
    exact this

/-- **C113**: every input file made of sections, comments and other lines in any order is read, and the parameters are exactly those that its sections set, one after the other (so that the last section of a kind counts,
and a kind that does not occur keeps its default). -/
theorem C113_document (c : InputCodec R) (secs : List (InputSection R)) (h : InputDocument c secs) :
    readParameters c (secs.flatMap (·.lines)) = some (secs.foldl (fun p sec => sec.apply p) {}) := by
  unfold readParameters
  have := document_run c _ secs [] {} rfl h
  rw [List.length_nil, ← List.range_eq_range'] at this
  exact this

end

section
variable {K : Type} [Field K] [LinearOrder K] [IsStrictOrderedRing K] [FloorRing K]

/-- **C113**, for the text of the file, with Python's `split`, `strip`, `int` and `float`. -/
theorem C113_text (secs : List (InputSection K)) (h : InputDocument pythonInput secs) (hn : ∀ sec ∈ secs, ∀ l ∈ sec.lines, '\n' ∉ l) :
    readInputText (unlines (secs.flatMap (·.lines))) = some (secs.foldl (fun p sec => sec.apply p) {}) := by
  unfold readInputText
  rw [unlines_flatMap, fileLines_lines, C113_document _ secs h]
  intro l hl
  obtain ⟨sec, hs, hl⟩ := List.mem_flatMap.1 hl
  exact hn sec hs l hl

end

/-! ## Example -/

instance (l : Line) : Decidable (QuietLine l) := by unfold QuietLine; infer_instance
instance (kw : String) (l : Line) : Decidable (HeaderLine kw l) := by unfold HeaderLine; infer_instance

/-- An input file with sections of most kinds, one of them twice, the list of segments at the end. -/
def exSections : List (InputSection ℚ) :=
  [.other "# input".toList, .poscar "STRUCTURE FILE POSCAR".toList "  POSCAR_a ".toList "POSCAR_a".toList, .other [],
   .primitive "PRIMITIVE MATRIX".toList "0.0 0.5 0.5".toList "0.5 0.0 .5".toList "0.5 5e-1 0.0".toList ![![0, 1 / 2, 1 / 2], ![1 / 2, 0, 1 / 2], ![1 / 2, 1 / 2, 0]],
   .mesh "MESH PHONOPY".toList "20 20 20".toList [20, 20, 20], .other "# BANDS".toList,
   .poscar "STRUCTURE FILE POSCAR".toList "POSCAR_b".toList "POSCAR_b".toList,
   .bands "BANDS".toList [("0.0, 0.0, 0.0   0.5, 0.0, 0.5 : GAMMA, X".toList, ⟨[0, 0, 0, 1 / 2, 0, 1 / 2], some ("GAMMA".toList, "X".toList)⟩)]]

theorem exSections_ok : InputDocument pythonInput exSections := by
  refine ⟨?_, trivial, ?_, trivial, ?_, trivial, ?_, trivial, ?_, trivial, ?_, trivial, ?_, trivial, ?_, ?_, trivial⟩
  · show QuietLine _; decide +kernel
  · exact ⟨by decide +kernel, by decide +kernel, by decide +kernel⟩
  · show QuietLine _; decide +kernel
  · exact ⟨by decide +kernel, by decide +kernel, by decide +kernel, by decide +kernel, by decide +kernel⟩
  · exact ⟨by decide +kernel, by decide +kernel, by decide +kernel⟩
  · show QuietLine _; decide +kernel
  · exact ⟨by decide +kernel, by decide +kernel, by decide +kernel⟩
  · refine ⟨by decide +kernel, ?_⟩
    intro r hr
    rw [List.mem_singleton] at hr
    subst hr
    exact ⟨by decide +kernel, by decide +kernel, Or.inr ⟨"0.0, 0.0, 0.0   0.5, 0.0, 0.5 ".toList, " GAMMA".toList, " X".toList, by decide +kernel, by decide +kernel, by decide +kernel, by decide +kernel,
      by decide +kernel, by decide +kernel, rfl, by decide +kernel, by decide +kernel⟩⟩
  · intro l hl
    simp at hl

example : readInputText (K := ℚ) (unlines (exSections.flatMap (·.lines))) = some
    { poscar := "POSCAR_b".toList, primitiveMatrix := some [[0, 1 / 2, 1 / 2], [1 / 2, 0, 1 / 2], [1 / 2, 1 / 2, 0]], mesh := some [20, 20, 20], ranges := some [[0, 0, 0, 1 / 2, 0, 1 / 2]],
      labels := some [("GAMMA".toList, "X".toList)] } := by
  rw [C113_text exSections exSections_ok (by decide +kernel)]
  decide +kernel

end Verif
