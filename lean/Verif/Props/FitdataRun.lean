import Verif.Model.FitdataRun
import Verif.Props.TextStable
import Verif.Props.CurveFile
import Verif.Props.Fitdata
import Verif.Props.Defined

/-! # C147: runs of the script fitdata on files it has saved -/

set_option autoImplicit false

namespace Verif

section
variable {K : Type} [Field K] [LinearOrder K] [IsStrictOrderedRing K] [FloorRing K]

/-- The option `-bi 1,2,...,n`. -/
def allColumns (n : ℕ) : List (List ℤ) := (List.range' 1 n).map fun (c : ℕ) => [(c : ℤ)]

omit [LinearOrder K] [IsStrictOrderedRing K] [FloorRing K] in
theorem fitdataRead_shape (groups : Option (List (List ℤ))) (text : List Char) (x : List K) (C : List (List K)) (h : fitdataRead groups text = some (x, C)) :
    x ≠ [] ∧ ∀ c ∈ C, c.length = x.length := by
  unfold fitdataRead at h
  simp only [Option.bind_eq_some_iff] at h
  obtain ⟨rows, -, h⟩ := h
  split_ifs at h with hr
  rw [Option.bind_eq_some_iff] at h
  obtain ⟨fr, hfr, h⟩ := h
  rw [Option.map_eq_some_iff] at h
  obtain ⟨cs, hcs, he⟩ := h
  obtain ⟨rfl, rfl⟩ := Prod.mk.inj he
  rw [mapM_eq_some_iff] at hfr hcs
  refine ⟨fun h0 => hr ?_, ?_⟩
  · rw [h0, List.forall₂_nil_right_iff] at hfr; exact hfr
  · intro c hc
    obtain ⟨k, hk, rfl⟩ := List.getElem_of_mem hc
    have hk' : k < _ := hcs.length_eq ▸ hk
    have := hcs.get hk' hk
    simp only [List.get_eq_getElem] at this
    rw [mapM_eq_some_iff] at this
    rw [← this.length_eq, hfr.length_eq]

omit [IsStrictOrderedRing K] in
theorem fitdataData_shape (groups : Option (List (List ℤ))) (smooth : Option K) (text : List Char) (x : List K) (C : List (List K)) (h : fitdataData groups smooth text = some (x, C)) :
    x ≠ [] ∧ ∀ c ∈ C, c.length = x.length := by
  unfold fitdataData at h
  rw [Option.bind_eq_some_iff] at h
  obtain ⟨⟨x', C'⟩, hr, h⟩ := h
  obtain ⟨h1, h2⟩ := fitdataRead_shape groups text x' C' hr
  cases smooth with
  | none =>
    simp only [Option.some.injEq, Prod.mk.injEq] at h
    obtain ⟨rfl, rfl⟩ := h
    exact ⟨h1, h2⟩
  | some f =>
    simp only [Option.map_eq_some_iff] at h
    obtain ⟨cs, hcs, he⟩ := h
    obtain ⟨rfl, rfl⟩ := Prod.mk.inj he
    refine ⟨h1, ?_⟩
    intro c hc
    rw [mapM_eq_some_iff] at hcs
    obtain ⟨k, hk, rfl⟩ := List.getElem_of_mem hc
    have hk' : k < _ := hcs.length_eq ▸ hk
    have := hcs.get hk' hk
    simp only [List.get_eq_getElem] at this
    unfold smoothCurve at this
    rw [mapM_eq_some_iff] at this
    exact this.length_eq.symm

/-- The rows of the file: frequency and values. -/
def fileRows (x : List K) (C : List (List K)) : List (K × List K) := x.zip (curveMatrix x.length C)

omit [FloorRing K] [IsStrictOrderedRing K] [LinearOrder K] in
theorem fileRows_maps (x : List K) (C : List (List K)) : (fileRows x C).map Prod.fst = x ∧ (fileRows x C).map Prod.snd = curveMatrix x.length C := by
  unfold fileRows
  have hl : (curveMatrix x.length C).length = x.length := by simp [curveMatrix]
  exact ⟨List.map_fst_zip (by omega), List.map_snd_zip (by omega)⟩

omit [FloorRing K] [IsStrictOrderedRing K] [LinearOrder K] in
theorem fileRows_eq (x : List K) (C : List (List K)) : fileRows x C = (List.range x.length).map fun i => (x.getD i 0, C.map fun c => c.getD i 0) := by
  unfold fileRows curveMatrix
  apply List.ext_getElem
  · simp
  · intro i h1 h2
    have hi : i < x.length := by simpa using h2
    simp [List.getD_eq_getElem?_getD, List.getElem?_eq_getElem hi]

omit [FloorRing K] [IsStrictOrderedRing K] [LinearOrder K] in
theorem fileRows_width (x : List K) (C : List (List K)) : ∀ p ∈ fileRows x C, p.2.length = C.length := by
  intro p hp
  rw [fileRows_eq] at hp
  obtain ⟨i, -, rfl⟩ := List.mem_map.1 hp
  simp

/-- What is read from the saved file with `-bi 1,2,...,n`: every column, in its order. -/
theorem saved_read (x : List K) (C : List (List K)) (hx : x ≠ []) (hC : ∀ c ∈ C, c.length = x.length) :
    ∃ text, curveText x (curveMatrix x.length C) = some text ∧ text = ((fileRows x C).map fun p => curveBody p.1 p.2).flatMap (fun l => l ++ ['\n']) ∧
      fitdataRead (some (allColumns C.length)) text = some (x.map (aroundDec 4), C.map fun c => c.map sciValue) := by
  obtain ⟨m1, m2⟩ := fileRows_maps x C
  have ht := curveText_eq (fileRows x C) []
  rw [List.append_nil, m1, m2] at ht
  refine ⟨_, ht, rfl, ?_⟩
  have hne : fileRows x C ≠ [] := by
    intro h0
    rw [h0] at m1
    exact hx m1.symm
  have h := fitdataRead_lines (fileRows x C) C.length (fileRows_width x C) hne ((List.range' 1 C.length).map fun c => [c]) (by
    intro g hg c hc
    obtain ⟨d, hd, rfl⟩ := List.mem_map.1 hg
    rw [List.mem_singleton] at hc
    subst hc
    rw [List.mem_range'_1] at hd
    omega)
  rw [List.map_map] at h
  have hcols : (List.range' 1 C.length).map ((fun g : List ℕ => g.map fun (c : ℕ) => (c : ℤ)) ∘ fun c => [c]) = allColumns C.length := by
    unfold allColumns
    rfl
  rw [hcols] at h
  rw [h]
  congr 2
  · rw [← m1, List.map_map]
    rw [m1]
    rfl
  · rw [List.map_map]
    apply List.ext_getElem
    · simp
    · intro k h1 h2
      have hk : k < C.length := by simpa using h2
      simp only [List.getElem_map, Function.comp_apply, List.getElem_range']
      rw [fileRows_eq, List.map_map]
      apply List.ext_getElem
      · simp [hC C[k] (List.getElem_mem hk)]
      · intro i h3 h4
        have hi : i < x.length := by simpa using h3
        have hi' : i < C[k].length := by rw [hC C[k] (List.getElem_mem hk)]; exact hi
        simp [groupMean, List.getD_eq_getElem?_getD, List.getElem?_eq_getElem hk, List.getElem?_eq_getElem hi']

/-- C147: what a run does: every curve is fitted on its own, in order, and if a file is asked for it is written, whenever no fit raises an exception. With `-bi 1,2,...,n` it is read again as these `n` curves:
the frequencies to four decimals and the values to ten digits. `x` and `C` are the frequencies and the curves analysed (after smoothing, if it was asked for). -/
theorem C147_saved {R : Type} (fit : List K → List K → Option R) (groups : Option (List (List ℤ))) (smooth : Option K) (text : List Char) (x : List K) (C : List (List K))
    (hread : fitdataData groups smooth text = some (x, C)) :
    ((fitdataRun fit groups smooth true text).isSome ↔ C ≠ [] ∧ ∀ c ∈ C, (fit x c).isSome) ∧
    ∀ r t, fitdataRun fit groups smooth true text = some (r, t) → List.Forall₂ (fun c o => fit x c = some o) C r ∧
      ∃ saved F D, t = some saved ∧ fitdataRead (some (allColumns C.length)) saved = some (F, D) ∧ List.Forall₂ (fun a b => |b - a| ≤ 1 / 20000) x F ∧
        List.Forall₂ (List.Forall₂ fun a b => |b - a| ≤ |a| * (1 / 2 / 10 ^ 10)) C D := by
  obtain ⟨hx, hC⟩ := fitdataData_shape groups smooth text x C hread
  obtain ⟨saved, hs, -, hr⟩ := saved_read x C hx hC
  unfold fitdataRun
  rw [hread, Option.bind_some]
  simp only [if_true, hs, Option.map_some]
  by_cases h0 : C = []
  · simp [h0]
  rw [if_neg h0]
  constructor
  · rw [← mapM_isSome]
    cases C.mapM (fit x) <;> simp [h0]
  · intro r t h
    rw [Option.bind_eq_some_iff] at h
    obtain ⟨r', hr', he⟩ := h
    simp only [Option.some.injEq, Prod.mk.injEq] at he
    obtain ⟨rfl, rfl⟩ := he
    refine ⟨(mapM_eq_some_iff _ _ _).1 hr', saved, _, _, rfl, hr, ?_, ?_⟩
    · rw [List.forall₂_map_right_iff, List.forall₂_same]
      intro a _
      have := aroundDec_error 4 a
      norm_num at this ⊢
      exact this
    · rw [List.forall₂_map_right_iff, List.forall₂_same]
      intro c _
      rw [List.forall₂_map_right_iff, List.forall₂_same]
      intro a _
      exact sciValue_error a

omit [IsStrictOrderedRing K] in
/-- C147: what is analysed: without smoothing the means of the groups (C112), with smoothing every curve is smoothed on its own, point by point (`loessAt`, C84). -/
theorem C147_smoothed (groups : Option (List (List ℤ))) (smooth : Option K) (text : List Char) (x : List K) (C : List (List K)) :
    fitdataData groups smooth text = some (x, C) ↔ ∃ C0, fitdataRead groups text = some (x, C0) ∧
      match smooth with
      | none => C = C0
      | some f => List.Forall₂ (fun y y' => List.Forall₂ (fun xi v => loessAt x y f xi = some v) x y') C0 C := by
  unfold fitdataData
  rw [Option.bind_eq_some_iff]
  cases smooth with
  | none =>
    constructor
    · rintro ⟨⟨x', C'⟩, h, he⟩
      simp only [Option.some.injEq, Prod.mk.injEq] at he
      obtain ⟨rfl, rfl⟩ := he
      exact ⟨_, h, rfl⟩
    · rintro ⟨C0, h, rfl⟩
      exact ⟨_, h, rfl⟩
  | some f =>
    constructor
    · rintro ⟨⟨x', C'⟩, h, he⟩
      simp only [Option.map_eq_some_iff] at he
      obtain ⟨cs, hcs, he⟩ := he
      obtain ⟨rfl, rfl⟩ := Prod.mk.inj he
      refine ⟨_, h, ?_⟩
      rw [mapM_eq_some_iff] at hcs
      refine hcs.imp fun y y' hy => ?_
      unfold smoothCurve at hy
      rwa [mapM_eq_some_iff] at hy
    · rintro ⟨C0, h, hC⟩
      refine ⟨_, h, ?_⟩
      simp only [Option.map_eq_some_iff]
      refine ⟨C, ?_, rfl⟩
      rw [mapM_eq_some_iff]
      refine hC.imp fun y y' hy => ?_
      unfold smoothCurve
      rwa [mapM_eq_some_iff]

/-- C147: running the script again on the saved file with `-bi 1,2,...,n`, without smoothing, and saving the result gives the same file, character by character, for frequencies that are not negative. -/
theorem C147_repeat {R : Type} (fit : List K → List K → Option R) (groups : Option (List (List ℤ))) (smooth : Option K) (text saved : List Char) (x : List K) (C : List (List K)) (r : List R)
    (hread : fitdataData groups smooth text = some (x, C)) (hpos : ∀ f ∈ x, 0 ≤ f) (hrun : fitdataRun fit groups smooth true text = some (r, some saved))
    (r' : List R) (saved' : List Char) (hrun' : fitdataRun fit (some (allColumns C.length)) none true saved = some (r', some saved')) : saved' = saved := by
  obtain ⟨hx, hC⟩ := fitdataData_shape groups smooth text x C hread
  obtain ⟨t, hs, htext, hr⟩ := saved_read x C hx hC
  have key : ∀ (g : Option (List (List ℤ))) (s : Option K) (txt sv : List Char) (y : List K) (D : List (List K)) (q : List R), fitdataData g s txt = some (y, D) →
      fitdataRun fit g s true txt = some (q, some sv) → curveText y (curveMatrix y.length D) = some sv := by
    intro g s txt sv y D q h1 h2
    unfold fitdataRun at h2
    rw [h1, Option.bind_some] at h2
    simp only [if_true] at h2
    split_ifs at h2 with h0
    rw [Option.bind_eq_some_iff] at h2
    obtain ⟨q', -, h2⟩ := h2
    rw [Option.map_eq_some_iff] at h2
    obtain ⟨t', ht', he⟩ := h2
    simp only [Prod.mk.injEq, Option.some.injEq] at he
    rw [ht', he.2]
  have e1 := key _ _ _ _ _ _ _ hread hrun
  have : t = saved := by rw [hs] at e1; exact Option.some.inj e1
  subst this
  have hd : fitdataData (some (allColumns C.length)) (none : Option K) t = some (x.map (aroundDec 4), C.map fun c => c.map sciValue) := by
    unfold fitdataData
    rw [hr]
    rfl
  have e2 := key _ _ _ _ _ _ _ hd hrun'
  obtain ⟨t2, ht2, htext2, -⟩ := saved_read (x.map (aroundDec 4)) (C.map fun c => c.map sciValue) (by simpa using hx) (by
    intro c hc
    obtain ⟨c0, h0, rfl⟩ := List.mem_map.1 hc
    simpa using hC c0 h0)
  rw [ht2] at e2
  rw [← Option.some.inj e2, htext2, htext]
  congr 1
  rw [fileRows_eq, fileRows_eq, List.map_map, List.map_map, List.length_map]
  refine List.map_congr_left fun i hi => ?_
  have hi' : i < x.length := List.mem_range.1 hi
  have s0 : sciValue (0 : K) = 0 := by
    have := sciValue_error (0 : K)
    simpa using this
  simp only [Function.comp_apply, List.map_map]
  have hx1 : (x.map (aroundDec 4)).getD i 0 = aroundDec 4 (x.getD i 0) := by
    simp [List.getD_eq_getElem?_getD, List.getElem?_eq_getElem hi']
  have hc1 : (C.map ((fun c : List K => c.getD i 0) ∘ fun c => c.map sciValue)) = (C.map fun c => c.getD i 0).map sciValue := by
    rw [List.map_map]
    refine List.map_congr_left fun c _ => ?_
    simp only [Function.comp_apply, List.getD_eq_getElem?_getD, List.getElem?_map]
    cases c[i]? <;> simp [s0]
  rw [hx1, hc1]
  have h0 : 0 ≤ x.getD i 0 := hpos _ (by
    simp only [List.getD_eq_getElem?_getD, List.getElem?_eq_getElem hi', Option.getD_some]
    exact List.getElem_mem hi')
  unfold curveBody
  rw [C111_fixed_stable 10 4 _ (Or.inl h0), List.flatMap_map]
  congr 2
  refine List.flatMap_congr fun a _ => ?_
  rw [C111_exp_stable false 10 a (sciValue a) (sciValue_read a)]

/-- C147, violated for all runs: without `-bi` every further run loses one more row of the file. -/
theorem C147_again_violated (x : List K) (C : List (List K)) (h2 : 2 ≤ x.length) :
    ∃ (saved : List Char) (F : List K) (D : List (List K)), curveText x (curveMatrix x.length C) = some saved ∧ fitdataRead none saved = some (F, D) ∧ F.length + 1 = x.length := by
  obtain ⟨m1, m2⟩ := fileRows_maps x C
  have hw := fileRows_width x C
  have hlen : (fileRows x C).length = x.length := by rw [fileRows_eq]; simp
  obtain ⟨first, rows, hrows⟩ := List.exists_cons_of_ne_nil (l := fileRows x C) (by intro h0; rw [h0] at hlen; simp at hlen; omega)
  rw [hrows] at m1 m2 hw hlen
  have hne : rows ≠ [] := by rintro rfl; simp at hlen; omega
  obtain ⟨text, rest, ht, hrest, he⟩ := C112_first_row_violated first rows C.length hw hne
  rw [m1, m2] at ht
  have hrt := curveText_eq rows []
  rw [List.append_nil, hrest, Option.some.injEq] at hrt
  have hread := fitdataRead_lines rows C.length (fun p hp => hw p (by simp [hp])) hne ((List.range' 1 C.length).map fun c => [c]) (by
    intro g hg c hc
    obtain ⟨d, hd, rfl⟩ := List.mem_map.1 hg
    rw [List.mem_singleton] at hc
    subst hc
    rw [List.mem_range'_1] at hd
    omega)
  rw [List.map_map, ← hrt] at hread
  refine ⟨text, _, _, ht, he.trans hread, ?_⟩
  simpa using hlen

/-- Two columns averaged: the run of the script on two lines of three columns, and the file it saves. -/
example : fitdataRun (fun (_ y : List ℚ) => y.head?) (some [[1, 2], [3]]) none true "0.5 1 3 7\n1.0 2 2 -8\n".toList =
    some ([2, 7], some "    0.5000\t2.0000000000e+00\t7.0000000000e+00\t\n    1.0000\t2.0000000000e+00\t-8.0000000000e+00\t\n".toList) := by
  decide +kernel

end

end Verif
