import Verif.Model.Interactive
import Verif.Props.Quasi

/-! # C98: the text menus -/

set_option autoImplicit false
set_option linter.unusedSectionVars false

namespace Verif

variable {K V : Type} [Field K] [LinearOrder K] [IsStrictOrderedRing K] [FloorRing K]

/-! ## Specification -/

/-- What a new `Quasiparticle` object with settings `s` shows: the calculation results among the things on the screen. -/
def Shown.Correct (env : QEnv K V (List K)) (s : QSettings K (List K)) : Shown K V → Prop
  | .frequencies f => f = ((Quasi.fresh s : Quasi K V (List K)).getFrq env).2
  | .eigenvectors e q _ => e = ((Quasi.fresh s : Quasi K V (List K)).getEig env).2 ∧ q = s.q
  | .bands b => b = ((Quasi.fresh s : Quasi K V (List K)).getBands env).2
  | .dos nac => nac = s.nac
  | .full r ps => r = s.freq.range ∧ ps = ((Quasi.fresh s : Quasi K V (List K)).getFull env (-1)).2
  | .wave r ps => r = s.freq.range ∧ ps = ((Quasi.fresh s : Quasi K V (List K)).getWave env).2
  | .phonon r ps => r = s.freq.range ∧ ps = ((Quasi.fresh s : Quasi K V (List K)).getPhonon env).2
  | .renormalized c => c = ((Quasi.fresh s : Quasi K V (List K)).getCom env).2
  | .thermal t c t' => t = s.freq.range.getLast? ∧ c = ((Quasi.fresh s : Quasi K V (List K)).getCom env).2 ∧
      t' = (arange 0 (env.dosLimit + s.freq.resolution) s.freq.resolution).getLast?
  | .peaks ps r h q f => ps = ((Quasi.fresh s : Quasi K V (List K)).getPhonon env).2 ∧ r = s.freq.range ∧
      h = ((Quasi.fresh s : Quasi K V (List K)).getFrq env).2 ∧ q = s.q ∧ f = s.fitFn
  | .boltzmann _ => True
  | .displacements _ _ => True

/-- The line entered with this character is one the program can handle: a wave vector with the same number of components as the
current one, a positive resolution, ordered limits, and no change of the number of MEM coefficients. -/
def Acceptable (cd : NumCodec K) (st : Session K V) (c : Char) : Prop :=
  ∀ p line, st.menu = .ask p line → c = '\n' → match p with
    | .wave => ∀ q, cd.vector line = some q → q.length = st.obj.s.q.length
    | .mem => ∀ n, cd.int line = some n → n = st.obj.s.memCoef
    | .resolution => ∀ r, cd.num line = some r → 0 < r
    | .limits => ∀ a b l, cd.vector line = some (a :: b :: l) → a ≤ b
    | _ => True

/-- All lines of a session are acceptable when they are entered. -/
def Sensible (env : QEnv K V (List K)) (cd : NumCodec K) (born : Bool) : Session K V → List Char → Prop
  | _, [] => True
  | st, c :: ks => Acceptable cd st c ∧ Sensible env cd born (st.step env cd born c) ks

/-! ## Lemmas -/

/-- Case split on all conditions of a cascade of `if`s, in order. -/
macro "cascade" m:term : tactic =>
  `(tactic| repeat' first | with_reducible refine iteInduction (motive := $m) (fun _ => ?_) (fun _ => ?_))

theorem run_append (env : QEnv K V (List K)) (cd : NumCodec K) (born : Bool) (st : Session K V) (a b : List Char) :
    st.run env cd born (a ++ b) = (st.run env cd born a).run env cd born b := by
  unfold Session.run; rw [List.foldl_append]

theorem sensible_append (env : QEnv K V (List K)) (cd : NumCodec K) (born : Bool) (a b : List Char) : ∀ st : Session K V,
    Sensible env cd born st (a ++ b) ↔ Sensible env cd born st a ∧ Sensible env cd born (st.run env cd born a) b := by
  induction a with
  | nil => intro st; simp [Sensible, Session.run]
  | cons c a ih => intro st; simp only [List.cons_append, Sensible, ih, Session.run, List.foldl_cons, and_assoc]

@[simp] theorem toMain_obj (st : Session K V) : st.toMain.obj = st.obj := by unfold Session.toMain; split <;> rfl
@[simp] theorem toMain_shown (st : Session K V) : st.toMain.shown = st.shown := by unfold Session.toMain; split <;> rfl

theorem QInv.fullClear {env : QEnv K V (List K)} {o : Quasi K V (List K)} (h : QInv env o) : QInv env o.fullClear :=
  ⟨h.valid, CacheOk.none _, CacheOk.none _, CacheOk.none _, CacheOk.none _, CacheOk.none _, CacheOk.none _, CacheOk.none _,
    h.bands, h.com⟩

/-- A step from a state with a consistent object: the object stays consistent, and what is shown is correct. -/
def GoodStep (env : QEnv K V (List K)) (st st' : Session K V) : Prop :=
  QInv env st'.obj ∧ (st'.shown = st.shown ∨ ∃ x, st'.shown = st.shown ++ [x] ∧ x.Correct env st.obj.s)

/-- What one step does to a consistent session. -/
theorem step_inv {env : QEnv K V (List K)} (hd : 0 < env.dosLimit) (cd : NumCodec K) (born : Bool) (st : Session K V)
    (c : Char) (h : QInv env st.obj) (ha : Acceptable cd st c) :
    GoodStep env st (st.step env cd born c) := by
  have f := QInv.fresh (V := V) env st.obj.s h.valid
  have hcom : QInv env (st.obj.getCom env).1 ∧ (st.obj.getCom env).2 = ((Quasi.fresh st.obj.s : Quasi K V (List K)).getCom env).2 :=
    ⟨(h.getCom hd).1, (h.getCom hd).2.2.1.trans (f.getCom hd).2.2.1.symm⟩
  unfold Session.step
  split
  · -- main
    unfold Session.mainKey
    cascade (GoodStep env st)
    · exact ⟨h, .inl rfl⟩
    · exact ⟨h, .inl rfl⟩
    · exact ⟨h, .inl rfl⟩
    · refine ⟨by simpa [Session.display] using hcom.1, .inr ⟨_, by simp only [toMain_shown, Session.display]; rfl, ?_⟩⟩
      refine ⟨rfl, hcom.2, ?_⟩
      rw [(h.getCom hd).2.2.2]; rfl
    · exact ⟨by simpa [Session.display] using h, .inr ⟨_, by simp only [toMain_shown, Session.display]; rfl, by trivial⟩⟩
    · exact ⟨h, .inl rfl⟩
    · exact ⟨h, .inl rfl⟩
    · have g := h.getPhonon.inv.getFrq
      have hs := g.s.trans h.getPhonon.s
      refine ⟨g.inv, .inr ⟨_, rfl, ?_⟩⟩
      have e : (env.frq (st.obj.getPhonon env).1.s.q) = env.frq st.obj.s.q := by rw [h.getPhonon.s]
      exact ⟨h.getPhonon.val.trans f.getPhonon.val.symm, by rw [hs], (g.val.trans e).trans f.getFrq.val.symm, by rw [hs],
        by rw [hs]⟩
    · exact ⟨h, .inl rfl⟩
    · exact ⟨h, .inl rfl⟩
    · exact ⟨by simpa using h, .inl (by simp)⟩
  · -- harmonic
    unfold Session.harmonicKey
    cascade (GoodStep env st)
    · exact ⟨by simpa using h, .inl (by simp)⟩
    · exact ⟨h.getFrq.inv, .inr ⟨_, rfl, h.getFrq.val.trans f.getFrq.val.symm⟩⟩
    · exact ⟨h.getEig.inv, .inr ⟨_, rfl, h.getEig.val.trans f.getEig.val.symm, rfl⟩⟩
    · exact ⟨h.getBands.1, .inr ⟨_, rfl, h.getBands.2.trans f.getBands.2.symm⟩⟩
    · exact ⟨h, .inr ⟨_, rfl, rfl⟩⟩
    · exact ⟨h, .inl rfl⟩
  · exact ⟨h, .inl rfl⟩
  · -- spectra
    unfold Session.spectraKey
    cascade (GoodStep env st)
    · exact ⟨by simpa using h, .inl (by simp)⟩
    · exact ⟨h.getFull.inv, .inr ⟨_, rfl, rfl, h.getFull.val.trans f.getFull.val.symm⟩⟩
    · exact ⟨h.getWave.inv, .inr ⟨_, rfl, rfl, h.getWave.val.trans f.getWave.val.symm⟩⟩
    · exact ⟨h.getPhonon.inv, .inr ⟨_, rfl, rfl, h.getPhonon.val.trans f.getPhonon.val.symm⟩⟩
    · exact ⟨h, .inl rfl⟩
  · -- dispersion
    unfold Session.dispersionKey Session.showRenormalized
    cascade (GoodStep env st)
    · exact ⟨by simpa using h, .inl (by simp)⟩
    · exact ⟨hcom.1, .inr ⟨_, rfl, hcom.2⟩⟩
    · exact ⟨h, .inl rfl⟩
  · exact ⟨by simpa using h, .inl (by simp)⟩
  · -- prefs
    unfold Session.prefsKey
    cascade (GoodStep env st)
    · exact ⟨by simpa using h, .inl (by simp)⟩
    all_goals exact ⟨h, .inl rfl⟩
  · -- algorithm
    unfold Session.algorithmKey
    dsimp only
    split_ifs
    · exact ⟨h, .inl rfl⟩
    · split
      · rename_i o ho; exact ⟨(h.setAlg _ ho).1, .inl rfl⟩
      · exact ⟨h, .inl rfl⟩
  · -- nac
    unfold Session.nacKey
    split
    · exact ⟨h, .inl rfl⟩
    · split_ifs
      · exact ⟨h, .inl rfl⟩
      · exact ⟨h.setNAC _, .inl rfl⟩
      · exact ⟨h, .inl rfl⟩
  · -- fitting
    unfold Session.fittingKey
    dsimp only
    split_ifs
    · exact ⟨h, .inl rfl⟩
    · split
      · rename_i o ho; exact ⟨(h.setFit _ ho).1, .inl rfl⟩
      · exact ⟨h, .inl rfl⟩
  · -- prompt
    rename_i p typed hm
    split_ifs with hc
    · have ha := ha p typed hm hc
      cases hans : st.answer cd p typed with
      | none => exact ⟨h, .inl rfl⟩
      | some st' =>
        simp only [Option.getD_some]
        unfold Session.answer at hans
        cases p <;> simp only [Option.map_eq_some_iff, Option.bind_eq_some_iff] at hans ha
        · obtain ⟨q, hq, rfl⟩ := hans
          refine ⟨?_, .inl (by simp)⟩
          simp only [toMain_obj, Quasi.setQAny, if_pos (ha q hq)]
          exact h.setQ q
        · obtain ⟨q, hq, rfl⟩ := hans
          exact ⟨by simpa [Session.display] using h, .inr ⟨_, by simp only [toMain_shown, Session.display]; rfl, by trivial⟩⟩
        · obtain ⟨n, hn, rfl⟩ := hans
          refine ⟨?_, .inl rfl⟩
          rw [ha n hn]
          exact h
        · obtain ⟨n, hn, rfl⟩ := hans; exact ⟨h, .inl rfl⟩
        · obtain ⟨n, hn, rfl⟩ := hans; exact ⟨h, .inl rfl⟩
        · obtain ⟨r, hr, hans⟩ := hans
          split_ifs at hans
          simp only [Option.map_eq_some_iff] at hans
          obtain ⟨o, ho, rfl⟩ := hans
          exact ⟨(h.setResolution hd r (ha r hr) ho).fullClear, .inl rfl⟩
        · obtain ⟨v, hv, hans⟩ := hans
          split at hans
          · simp only [Option.some.injEq] at hans
            subst hans
            exact ⟨(h.setLimits _ _ (ha _ _ _ hv)).1, .inl rfl⟩
          · simp at hans
    · exact ⟨h, .inl rfl⟩
    · exact ⟨h, .inl rfl⟩
  · exact ⟨h, .inl rfl⟩
  · exact ⟨h, .inl rfl⟩

theorem run_inv {env : QEnv K V (List K)} (hd : 0 < env.dosLimit) (cd : NumCodec K) (born : Bool) (keys : List Char) :
    ∀ st : Session K V, QInv env st.obj → Sensible env cd born st keys → QInv env (st.run env cd born keys).obj := by
  induction keys with
  | nil => intro st h _; exact h
  | cons c ks ih =>
    intro st h hs
    exact ih _ (step_inv hd cd born st c h hs.1).1 hs.2

/-- C98 (part): whatever is typed, as long as the lines are acceptable, everything the menus show is what a new object with
the settings of that moment (the ones displayed on the screen) shows: a key shows nothing, or one thing, and that is
correct. Missing, and false (`C98_mem_violated`, `C98_wave_violated`): changing the number of MEM coefficients, and a wave
vector with a wrong number of components. -/
theorem C98_consistent_partial (env : QEnv K V (List K)) (hd : 0 < env.dosLimit) (cd : NumCodec K) (born : Bool)
    (s : QSettings K (List K)) (hs : s.freq.Valid) (keys : List Char) (c : Char)
    (h : Sensible env cd born { obj := Quasi.fresh s } (keys ++ [c])) :
    let st : Session K V := ({ obj := Quasi.fresh s } : Session K V).run env cd born keys
    (st.step env cd born c).shown = st.shown ∨
      ∃ x, (st.step env cd born c).shown = st.shown ++ [x] ∧ x.Correct env st.obj.s := by
  rw [sensible_append] at h
  exact (step_inv hd cd born _ c (run_inv hd cd born keys _ (QInv.fresh env s hs) h.1) h.2.1).2

/-- The choices are on the lists. -/
def GoodChoice (st : Session K V) : Prop := st.obj.s.alg < 6 ∧ st.obj.s.fitFn < 3

theorem step_choice (env : QEnv K V (List K)) (cd : NumCodec K) (born : Bool) (st : Session K V) (c : Char)
    (h : GoodChoice st) : GoodChoice (st.step env cd born c) := by
  obtain ⟨g1, g2, -, -, g3, g4, g5, -⟩ := C34_getters env st.obj (-1)
  obtain ⟨fr, g6, -⟩ := C34_commensurate env st.obj
  have gb : (st.obj.getBands env).1.s.alg = st.obj.s.alg ∧ (st.obj.getBands env).1.s.fitFn = st.obj.s.fitFn := by
    unfold Quasi.getBands; dsimp only; split <;> exact ⟨rfl, rfl⟩
  have gw : ∀ x, (st.obj.withFreq x).s.alg = st.obj.s.alg ∧ (st.obj.withFreq x).s.fitFn = st.obj.s.fitFn := by
    intro x
    unfold Quasi.withFreq Quasi.powerSpectraClear Quasi.forceConstantsClear Quasi.bandsClear
    dsimp only; split <;> exact ⟨rfl, rfl⟩
  unfold Session.step
  split
  · unfold Session.mainKey
    cascade GoodChoice
    all_goals first | exact h | skip
    · simpa [GoodChoice, Session.display, g6] using h
    · simpa [GoodChoice, Session.display] using h
    · have := (C34_getters env (st.obj.getPhonon env).1 (-1)).2.1
      simpa [GoodChoice, Session.display, this, g3] using h
    · simpa [GoodChoice] using h
  · unfold Session.harmonicKey
    cascade GoodChoice
    · simpa [GoodChoice] using h
    · simpa [GoodChoice, Session.display, g2] using h
    · simpa [GoodChoice, Session.display, g1] using h
    · simpa [GoodChoice, Session.display, gb] using h
    · exact h
    · exact h
  · exact h
  · unfold Session.spectraKey
    cascade GoodChoice
    · simpa [GoodChoice] using h
    · simpa [GoodChoice, Session.display, g5] using h
    · simpa [GoodChoice, Session.display, g4] using h
    · simpa [GoodChoice, Session.display, g3] using h
    · exact h
  · unfold Session.dispersionKey Session.showRenormalized
    cascade GoodChoice
    · simpa [GoodChoice] using h
    · simpa [GoodChoice, Session.display, g6] using h
    · exact h
  · simpa [GoodChoice] using h
  · unfold Session.prefsKey
    cascade GoodChoice
    · simpa [GoodChoice] using h
    all_goals exact h
  · unfold Session.algorithmKey
    dsimp only
    split_ifs with hx
    · exact h
    · split
      · rename_i o ho
        unfold Quasi.setAlg at ho
        rw [if_pos (by omega)] at ho
        split_ifs at ho
        · simp only [Option.some.injEq] at ho
          subst ho
          exact ⟨by simpa [GoodChoice] using hx, h.2⟩
        · simp only [Option.some.injEq] at ho
          subst ho
          exact h
      · exact h
  · unfold Session.nacKey
    split
    · exact h
    · split_ifs <;> exact h
  · unfold Session.fittingKey
    dsimp only
    split_ifs with hx
    · exact h
    · split
      · rename_i o ho
        unfold Quasi.setFit at ho
        rw [if_pos (by omega)] at ho
        split_ifs at ho
        · simp only [Option.some.injEq] at ho
          subst ho
          exact ⟨h.1, by simpa [GoodChoice] using hx⟩
        · simp only [Option.some.injEq] at ho
          subst ho
          exact h
      · exact h
  · rename_i p typed hm
    split_ifs
    · cases hans : st.answer cd p typed with
      | none => exact h
      | some st' =>
        simp only [Option.getD_some]
        unfold Session.answer at hans
        cases p <;> simp only [Option.map_eq_some_iff, Option.bind_eq_some_iff] at hans
        · obtain ⟨q, hq, rfl⟩ := hans
          unfold GoodChoice
          simp only [toMain_obj, Quasi.setQAny]
          split_ifs
          · simpa [GoodChoice] using h
          · exact h
        · obtain ⟨q, hq, rfl⟩ := hans; simpa [GoodChoice, Session.display] using h
        · obtain ⟨n, hn, rfl⟩ := hans; exact h
        · obtain ⟨n, hn, rfl⟩ := hans; exact h
        · obtain ⟨n, hn, rfl⟩ := hans; exact h
        · obtain ⟨r, hr, hans⟩ := hans
          split_ifs at hans
          simp only [Option.map_eq_some_iff, Quasi.setResolution] at hans
          obtain ⟨o, ⟨a, ha, rfl⟩, rfl⟩ := hans
          simpa [GoodChoice, Quasi.fullClear, gw] using h
        · obtain ⟨v, hv, hans⟩ := hans
          split at hans
          · simp only [Option.some.injEq] at hans
            subst hans
            simpa [GoodChoice, Quasi.setLimits, gw] using h
          · simp at hans
    · exact h
    · exact h
  · exact h
  · exact h

/-- C98: in every session, whatever is typed, the power spectrum algorithm stays one of the six and the fitting function one of
the three (the lists are shown until one of the offered numbers is chosen, and the program never exits there). -/
theorem C98_choice (env : QEnv K V (List K)) (cd : NumCodec K) (born : Bool) (s : QSettings K (List K))
    (h : s.alg < 6 ∧ s.fitFn < 3) (keys : List Char) :
    (({ obj := Quasi.fresh s } : Session K V).run env cd born keys).obj.s.alg < 6 ∧
    (({ obj := Quasi.fresh s } : Session K V).run env cd born keys).obj.s.fitFn < 3 := by
  have : ∀ st : Session K V, st.obj.s.alg < 6 ∧ st.obj.s.fitFn < 3 →
      (st.run env cd born keys).obj.s.alg < 6 ∧ (st.run env cd born keys).obj.s.fitFn < 3 := by
    induction keys with
    | nil => intro st h; exact h
    | cons c ks ih => intro st h; exact ih _ (step_choice env cd born st c h)
  exact this _ h

/-- C98: choosing an algorithm or a fitting function with the keys `9 1 d` and `9 6 d` sets exactly that, for every digit on
offer and every state of the calculation; other keys leave the list on the screen. -/
theorem C98_select (env : QEnv K V (List K)) (cd : NumCodec K) (born : Bool) (st : Session K V) (hm : st.menu = .main)
    (d : Char) (n : ℕ) (hd : keyDigit d = some n) :
    (n < 6 → (st.run env cd born ['9', '1', d]).obj.s = { st.obj.s with alg := n } ∧
      (st.run env cd born ['9', '1', d]).menu = .prefs) ∧
    (n < 3 → (st.run env cd born ['9', '6', d]).obj.s = { st.obj.s with fitFn := n } ∧
      (st.run env cd born ['9', '6', d]).menu = .prefs) ∧
    (6 ≤ n → st.run env cd born ['9', '1', d] = { st with menu := .algorithm }) ∧
    (3 ≤ n → st.run env cd born ['9', '6', d] = { st with menu := .fitting }) := by
  refine ⟨fun hn => ?_, fun hn => ?_, fun hn => ?_, fun hn => ?_⟩
  · simp only [Session.run, List.foldl_cons, List.foldl_nil, Session.step, hm, Session.mainKey, Session.prefsKey,
      Session.algorithmKey, hd, Option.getD_some, Quasi.setAlg, if_pos hn, if_neg (not_le.2 hn)]
    simp only [Char.reduceEq, if_true, if_false]
    by_cases h : n ≠ st.obj.s.alg
    · simp [h]
    · rw [if_neg h]; rw [not_not] at h; subst h; exact ⟨rfl, rfl⟩
  · simp only [Session.run, List.foldl_cons, List.foldl_nil, Session.step, hm, Session.mainKey, Session.prefsKey,
      Session.fittingKey, hd, Option.getD_some, Quasi.setFit, if_pos hn, if_neg (not_le.2 hn)]
    simp only [Char.reduceEq, if_true, if_false]
    by_cases h : n ≠ st.obj.s.fitFn
    · simp [h]
    · rw [if_neg h]; rw [not_not] at h; subst h; exact ⟨rfl, rfl⟩
  · simp [Session.run, Session.step, hm, Session.mainKey, Session.prefsKey, Session.algorithmKey, hd, hn]
  · simp [Session.run, Session.step, hm, Session.mainKey, Session.prefsKey, Session.fittingKey, hd, hn]

/-- C98: a key that is not a digit leaves the list of algorithms or fitting functions on the screen and changes nothing. -/
theorem C98_other_keys (env : QEnv K V (List K)) (cd : NumCodec K) (born : Bool) (st : Session K V) (hm : st.menu = .main)
    (d : Char) (hd : d.isDigit = false) :
    st.run env cd born ['9', '1', d] = { st with menu := .algorithm } ∧
    st.run env cd born ['9', '6', d] = { st with menu := .fitting } := by
  simp [Session.run, Session.step, hm, Session.mainKey, Session.prefsKey, Session.fittingKey, Session.algorithmKey,
    keyDigit, hd]

/-- Typing a line at a prompt. -/
theorem run_line (env : QEnv K V (List K)) (cd : NumCodec K) (born : Bool) (p : Prompt) (line : List Char)
    (hn : '\n' ∉ line) : ∀ (typed : List Char) (st : Session K V), st.menu = .ask p typed →
    typed.length + line.length ≤ 60 →
    st.run env cd born (line ++ ['\n']) =
      (({ st with menu := .ask p (typed ++ line) } : Session K V).answer cd p (typed ++ line)).getD
        { st with menu := .crashed } := by
  induction line with
  | nil =>
    intro typed st hm _
    have e : ({ st with menu := .ask p (typed ++ []) } : Session K V) = st := by
      cases st; simp only at hm; subst hm; simp
    simp only [List.nil_append, Session.run, List.foldl_cons, List.foldl_nil, Session.step, hm, if_true, e]
    simp
  | cons c line ih =>
    intro typed st hm hl
    simp only [List.length_cons] at hl
    simp only [List.mem_cons, not_or] at hn
    have e : st.step env cd born c = { st with menu := .ask p (typed ++ [c]) } := by
      simp only [Session.step, hm]
      rw [if_neg (Ne.symm hn.1), if_pos (by omega)]
    have := ih hn.2 (typed ++ [c]) (st.step env cd born c) (by rw [e]) (by simp; omega)
    simp only [List.cons_append, Session.run, List.foldl_cons]
    simp only [Session.run] at this
    rw [this, e]
    simp

theorem run_full (env : QEnv K V (List K)) (cd : NumCodec K) (born : Bool) (p : Prompt) (typed : List Char) (st : Session K V) (hm : st.menu = .ask p typed) (ht : 60 ≤ typed.length) (line : List Char) (hn : '\n' ∉ line) :
    st.run env cd born line = st := by
  induction line with
  | nil => rfl
  | cons c line ih =>
    simp only [List.mem_cons, not_or] at hn
    have e : st.step env cd born c = st := by
      simp only [Session.step, hm]
      rw [if_neg (Ne.symm hn.1), if_neg (by omega)]
    simp only [Session.run, List.foldl_cons, e]
    exact ih hn.2

theorem run_typed (env : QEnv K V (List K)) (cd : NumCodec K) (born : Bool) (p : Prompt) (line : List Char) (hn : '\n' ∉ line) : ∀ (typed : List Char) (st : Session K V), st.menu = .ask p typed →
    typed.length + line.length ≤ 60 → (st.run env cd born line).menu = .ask p (typed ++ line) := by
  induction line with
  | nil => intro typed st hm _; simpa [Session.run] using hm
  | cons c line ih =>
    intro typed st hm hl
    simp only [List.length_cons] at hl
    simp only [List.mem_cons, not_or] at hn
    have e : st.step env cd born c = { st with menu := .ask p (typed ++ [c]) } := by
      simp only [Session.step, hm]
      rw [if_neg (Ne.symm hn.1), if_pos (by omega)]
    have := ih hn.2 (typed ++ [c]) (st.step env cd born c) (by rw [e]) (by simp; omega)
    simp only [Session.run, List.foldl_cons] at this ⊢
    rw [this]; simp

/-- C98: a line of more than 60 characters typed at a prompt is read as its first 60 characters. -/
theorem C98_long_line (env : QEnv K V (List K)) (cd : NumCodec K) (born : Bool) (p : Prompt) (st : Session K V) (hm : st.menu = .ask p []) (line : List Char) (hn : '\n' ∉ line) :
    st.run env cd born (line ++ ['\n']) = st.run env cd born (line.take 60 ++ ['\n']) := by
  have hn1 : '\n' ∉ line.take 60 := fun h => hn (List.mem_of_mem_take h)
  have hn2 : '\n' ∉ line.drop 60 := fun h => hn (List.mem_of_mem_drop h)
  have h1 := run_typed env cd born p (line.take 60) hn1 [] st hm (by simp)
  have e : st.run env cd born line = st.run env cd born (line.take 60) := by
    by_cases hl : line.length ≤ 60
    · rw [List.take_of_length_le hl]
    · conv_lhs => rw [← List.take_append_drop 60 line]
      have : ∀ a b, st.run env cd born (a ++ b) = (st.run env cd born a).run env cd born b := fun a b => by simp [Session.run]
      rw [this]
      exact run_full env cd born p _ _ h1 (by simp; omega) _ hn2
  simp only [Session.run, List.foldl_append] at e ⊢
  rw [e]

/-- C98: the prompts do what they ask for. From the main menu, with a line that can be read: `2` sets the wave vector,
`8` shows the displacements along the direction with the current number of bins, `9 3`, `9 4`, `9 5` set the number of
coefficients, of bins and the scale, `9 7` the resolution, `9 8` the limits of the frequency range; nothing else of the settings
changes. A line that cannot be read ends the program with an exception. -/
theorem C98_prompts (env : QEnv K V (List K)) (cd : NumCodec K) (born : Bool) (st : Session K V) (hm : st.menu = .main)
    (hv : st.obj.s.freq.Valid) (line : List Char) (hn : '\n' ∉ line) (hl : line.length ≤ 60) :
    (∀ q, cd.vector line = some q → let fin := st.run env cd born ('2' :: (line ++ ['\n']))
      fin.menu = .main ∧ fin.obj.s = { st.obj.s with q := q } ∧ fin.shown = st.shown) ∧
    (∀ d, cd.vector line = some d → let fin := st.run env cd born ('8' :: (line ++ ['\n']))
      fin.menu = .main ∧ fin.obj = st.obj ∧ fin.shown = st.shown ++ [.displacements d st.bins]) ∧
    (∀ n, cd.int line = some n →
      (st.run env cd born ('9' :: '3' :: (line ++ ['\n']))).obj.s = { st.obj.s with memCoef := n } ∧
      st.run env cd born ('9' :: '4' :: (line ++ ['\n'])) = { st with menu := .prefs, bins := n } ∧
      st.run env cd born ('9' :: '5' :: (line ++ ['\n'])) = { st with menu := .prefs, scale := n }) ∧
    (∀ r, cd.num line = some r → 0 < r → let fin := st.run env cd born ('9' :: '7' :: (line ++ ['\n']))
      fin.menu = .prefs ∧ fin.shown = st.shown ∧ ∃ f, fin.obj.s = { st.obj.s with freq := f } ∧ f.resolution = r) ∧
    (∀ a b l, cd.vector line = some (a :: b :: l) → a ≤ b → let fin := st.run env cd born ('9' :: '8' :: (line ++ ['\n']))
      fin.menu = .prefs ∧ fin.shown = st.shown ∧ ∃ f, fin.obj.s = { st.obj.s with freq := f } ∧
        IsGrid f.range a b st.obj.s.freq.resolution ∧ f.resolution = st.obj.s.freq.resolution) ∧
    (cd.vector line = none → ∀ k ∈ [['2'], ['8'], ['9', '8']], (st.run env cd born (k ++ (line ++ ['\n']))).menu = .crashed) ∧
    (cd.int line = none → ∀ k ∈ [['9', '3'], ['9', '4'], ['9', '5']],
      (st.run env cd born (k ++ (line ++ ['\n']))).menu = .crashed) ∧
    (cd.num line = none → (st.run env cd born (['9', '7'] ++ (line ++ ['\n']))).menu = .crashed) := by
  have hr : st.obj.s.freq.range ≠ [] := hv.2.1
  have m2 : st.step env cd born '2' = { st with menu := .ask .wave [] } := by simp [Session.step, hm, Session.mainKey]
  have m8 : st.step env cd born '8' = { st with menu := .ask .direction [] } := by simp [Session.step, hm, Session.mainKey]
  have m9 : st.step env cd born '9' = { st with menu := .prefs } := by simp [Session.step, hm, Session.mainKey]
  have n3 : ({ st with menu := .prefs } : Session K V).step env cd born '3' = { st with menu := .ask .mem [] } := by
    simp [Session.step, Session.prefsKey]
  have n4 : ({ st with menu := .prefs } : Session K V).step env cd born '4' = { st with menu := .ask .bins [] } := by
    simp [Session.step, Session.prefsKey]
  have n5 : ({ st with menu := .prefs } : Session K V).step env cd born '5' = { st with menu := .ask .scale [] } := by
    simp [Session.step, Session.prefsKey]
  have n7 : ({ st with menu := .prefs } : Session K V).step env cd born '7' = { st with menu := .ask .resolution [] } := by
    simp [Session.step, Session.prefsKey]
  have n8 : ({ st with menu := .prefs } : Session K V).step env cd born '8' = { st with menu := .ask .limits [] } := by
    simp [Session.step, Session.prefsKey]
  have main : ∀ p, ({ st with menu := .ask p [] } : Session K V).run env cd born (line ++ ['\n']) =
      (({ st with menu := .ask p line } : Session K V).answer cd p line).getD { st with menu := .crashed } := by
    intro p
    have := run_line env cd born p line hn [] { st with menu := .ask p [] } rfl (by simpa using hl)
    simpa using this
  have cons : ∀ (x : Session K V) (c : Char) (l : List Char), x.run env cd born (c :: l) = (x.step env cd born c).run env cd born l :=
    fun _ _ _ => rfl
  have gs : ∀ f : FreqSettings K × Bool, (st.obj.withFreq f).s = { st.obj.s with freq := f.1 } := by
    intro f; unfold Quasi.withFreq Quasi.powerSpectraClear Quasi.forceConstantsClear; dsimp only; split <;> rfl
  refine ⟨?_, ?_, ?_, ?_, ?_, ?_, ?_, ?_⟩
  · intro q hq
    simp only [cons, m2, main, Session.answer, hq, Option.map_some, Option.getD_some]
    have : (st.obj.setQAny q).s = { st.obj.s with q := q } := by unfold Quasi.setQAny; split <;> simp
    refine ⟨?_, by simpa using this, by simp⟩
    simp [Session.toMain, this, hr]
  · intro q hq
    simp only [cons, m8, main, Session.answer, hq, Option.map_some, Option.getD_some]
    simp [Session.toMain, Session.display, hr]
  · intro n hq
    simp only [cons, m9, n3, n4, n5, main, Session.answer, hq, Option.map_some, Option.getD_some, and_self]
  · intro r hq h0
    obtain ⟨s', c, a, b, e1, -, -, -, hres, -⟩ := C39_resolution st.obj.s.freq hv r h0
    simp only [cons, m9, n7, main, Session.answer, hq, Option.bind_some, if_neg h0.ne', Quasi.setResolution, e1,
      Option.map_some, Option.getD_some]
    exact ⟨trivial, trivial, s', by simp only [Quasi.fullClear, gs], hres⟩
  · intro a b l hq hab
    obtain ⟨h1, h2, -⟩ := C39_limits st.obj.s.freq hv a b hab
    simp only [cons, m9, n8, main, Session.answer, hq, Option.bind_some, Option.getD_some]
    exact ⟨trivial, trivial, _, by simp only [Quasi.setLimits, gs], h1, h2⟩
  · intro hq k hk
    simp only [List.mem_cons, List.not_mem_nil, or_false] at hk
    rcases hk with rfl | rfl | rfl <;>
      simp only [List.cons_append, List.nil_append, cons, m2, m8, m9, n8, main, Session.answer, hq] <;> rfl
  · intro hq k hk
    simp only [List.mem_cons, List.not_mem_nil, or_false] at hk
    rcases hk with rfl | rfl | rfl <;>
      simp only [List.cons_append, List.nil_append, cons, m9, n3, n4, n5, main, Session.answer, hq] <;> rfl
  · intro hq
    simp only [List.cons_append, List.nil_append, cons, m9, n7, main, Session.answer, hq]
    rfl

/-- C98: the plot keys show what the menus announce: `1 1` harmonic frequencies, `1 2` eigenvectors, `1 3` bands, `1 4` density of
states, `5 1`, `5 2`, `5 3` the full, wave vector and phonon power spectra, `6 1`-`6 4` renormalized dispersions, `3` thermal
properties, `4` Boltzmann, `7` peaks. -/
theorem C98_keys (env : QEnv K V (List K)) (cd : NumCodec K) (born : Bool) (st : Session K V) (hm : st.menu = .main) :
    (∃ x, (st.run env cd born ['1', '1']).shown = st.shown ++ [.frequencies x]) ∧
    (∃ x q, (st.run env cd born ['1', '2']).shown = st.shown ++ [.eigenvectors x q st.scale]) ∧
    (∃ x, (st.run env cd born ['1', '3']).shown = st.shown ++ [.bands x]) ∧
    (∃ x, (st.run env cd born ['1', '4']).shown = st.shown ++ [.dos x]) ∧
    (∃ r x, (st.run env cd born ['5', '1']).shown = st.shown ++ [.full r x]) ∧
    (∃ r x, (st.run env cd born ['5', '2']).shown = st.shown ++ [.wave r x]) ∧
    (∃ r x, (st.run env cd born ['5', '3']).shown = st.shown ++ [.phonon r x]) ∧
    (∀ c ∈ ['1', '2', '3', '4'], ∃ x, (st.run env cd born ['6', c]).shown = st.shown ++ [.renormalized x]) ∧
    (∃ t c t', (st.run env cd born ['3']).shown = st.shown ++ [.thermal t c t']) ∧
    (st.run env cd born ['4']).shown = st.shown ++ [.boltzmann st.bins] ∧
    (∃ p r h q f, (st.run env cd born ['7']).shown = st.shown ++ [.peaks p r h q f]) := by
  refine ⟨?_, ?_, ?_, ?_, ?_, ?_, ?_, ?_, ?_, ?_, ?_⟩
  case refine_8 =>
    intro c hc
    simp only [List.mem_cons, List.not_mem_nil, or_false] at hc
    refine ⟨(st.obj.getCom env).2, ?_⟩
    rcases hc with rfl | rfl | rfl | rfl <;>
      simp [Session.run, Session.step, hm, Session.mainKey, Session.dispersionKey, Session.showRenormalized, Session.display]
  all_goals
    simp only [Session.run, List.foldl_cons, List.foldl_nil, Session.step, hm, Session.mainKey, Session.harmonicKey,
      Session.spectraKey, Session.display, toMain_shown, Char.reduceEq, if_true, if_false]
  all_goals first | exact ⟨_, rfl⟩ | exact ⟨_, _, rfl⟩ | exact ⟨_, _, _, rfl⟩ | exact ⟨_, _, _, _, _, rfl⟩

/-- C98: the program ends only by the key `0` in the main menu, and then at once. -/
theorem C98_exit (env : QEnv K V (List K)) (cd : NumCodec K) (born : Bool) (st : Session K V) (c : Char)
    (h : st.menu ≠ .done) : (st.step env cd born c).menu = .done ↔ st.menu = .main ∧ c = '0' := by
  have tm : ∀ x : Session K V, x.toMain.menu ≠ .done := by intro x; unfold Session.toMain; split <;> simp
  let P : Session K V → Prop := fun x => x.menu = .done ↔ st.menu = .main ∧ c = '0'
  show P _
  unfold Session.step
  split <;> rename_i hm
  · unfold Session.mainKey
    repeat' first | with_reducible refine iteInduction (motive := P) (fun h0 => ?_) (fun _ => ?_)
    all_goals simp [P, hm, *, tm, Session.display]
  · unfold Session.harmonicKey
    repeat' first | with_reducible refine iteInduction (motive := P) (fun h0 => ?_) (fun _ => ?_)
    all_goals simp [P, hm, tm, Session.display]
  · simp [P, hm]
  · unfold Session.spectraKey
    repeat' first | with_reducible refine iteInduction (motive := P) (fun h0 => ?_) (fun _ => ?_)
    all_goals simp [P, hm, tm, Session.display]
  · unfold Session.dispersionKey Session.showRenormalized
    repeat' first | with_reducible refine iteInduction (motive := P) (fun h0 => ?_) (fun _ => ?_)
    all_goals simp [P, hm, tm, Session.display]
  · simp [P, hm, tm]
  · unfold Session.prefsKey
    repeat' first | with_reducible refine iteInduction (motive := P) (fun h0 => ?_) (fun _ => ?_)
    all_goals simp [P, hm, tm]
  · unfold Session.algorithmKey
    dsimp only
    split_ifs
    · simp [P, hm]
    · split <;> simp [P, hm]
  · unfold Session.nacKey
    split
    · simp [P, hm]
    · split_ifs <;> simp [P, hm]
  · unfold Session.fittingKey
    dsimp only
    split_ifs
    · simp [P, hm]
    · split <;> simp [P, hm]
  · rename_i p typed
    split_ifs
    · cases hans : st.answer cd p typed with
      | none => simp [P, hm]
      | some st' =>
        simp only [Option.getD_some]
        unfold Session.answer at hans
        cases p <;> simp only [Option.map_eq_some_iff, Option.bind_eq_some_iff] at hans
        · obtain ⟨q, hq, rfl⟩ := hans; simp [P, hm, tm]
        · obtain ⟨q, hq, rfl⟩ := hans; simp [P, hm, tm]
        · obtain ⟨q, hq, rfl⟩ := hans; simp [P, hm]
        · obtain ⟨q, hq, rfl⟩ := hans; simp [P, hm]
        · obtain ⟨q, hq, rfl⟩ := hans; simp [P, hm]
        · obtain ⟨r, hr, hans⟩ := hans
          split_ifs at hans
          simp only [Option.map_eq_some_iff] at hans
          obtain ⟨o, ho, rfl⟩ := hans; simp [P, hm]
        · obtain ⟨v, hv, hans⟩ := hans
          split at hans
          · simp only [Option.some.injEq] at hans
            subst hans; simp [P, hm]
          · simp at hans
    · simp [P, hm]
    · simp [P, hm]
  · exact absurd hm h
  · simp [P, hm]

/-! ## Violations -/

theorem phonon_cached (env : QEnv K V (List K)) (o : Quasi K V (List K)) :
    (o.getPhonon env).1.psPhonon = some (o.getPhonon env).2 := by
  unfold Quasi.getPhonon
  split
  · rename_i p hp; exact hp
  · split <;> rfl

theorem phonon_again (env : QEnv K V (List K)) (o : Quasi K V (List K)) (v : V) (h : o.psPhonon = some v) :
    (o.getPhonon env).2 = v := by
  unfold Quasi.getPhonon; rw [h]

/-- C98, violated: the number of MEM coefficients typed in the preferences is displayed and stored, but the power spectrum
plotted afterwards is the one plotted before, whatever the routines compute. -/
theorem C98_mem_violated (env : QEnv K V (List K)) (cd : NumCodec K) (born : Bool) (st : Session K V) (hm : st.menu = .main)
    (hr : st.obj.s.freq.range ≠ []) (line : List Char) (n : ℕ) (hn : '\n' ∉ line) (hl : line.length ≤ 60)
    (hint : cd.int line = some n) :
    let fin := st.run env cd born (['5', '3', '0', '9', '3'] ++ (line ++ ['\n']) ++ ['0', '5', '3'])
    fin.obj.s = { st.obj.s with memCoef := n } ∧
    fin.shown = st.shown ++ [.phonon st.obj.s.freq.range (st.obj.getPhonon env).2,
      .phonon st.obj.s.freq.range (st.obj.getPhonon env).2] := by
  intro fin
  have gs := getPhonon_s env st.obj
  set o1 := (st.obj.getPhonon env).1 with ho1
  set v := (st.obj.getPhonon env).2 with hv
  have hr1 : o1.s.freq.range ≠ [] := by rw [gs]; exact hr
  have e1 : st.run env cd born ['5', '3', '0', '9', '3'] = { st with menu := .ask .mem [], obj := o1, shown := st.shown ++ [.phonon st.obj.s.freq.range v] } := by
    simp only [Session.run, List.foldl_cons, List.foldl_nil, Session.step, hm, Session.mainKey, Session.spectraKey,
      Session.display, Session.toMain, ← ho1, ← hv, Char.reduceEq, if_true, if_false, hr1, Session.prefsKey]
  have e2 := run_line env cd born .mem line hn [] { st with menu := .ask .mem [], obj := o1, shown := st.shown ++ [.phonon st.obj.s.freq.range v] } rfl (by simpa using hl)
  simp only [List.nil_append, Session.answer, hint, Option.map_some, Option.getD_some] at e2
  have e3 : fin = ({ st with menu := .prefs, obj := { o1 with s := { o1.s with memCoef := n } }, shown := st.shown ++ [.phonon st.obj.s.freq.range v] } : Session K V).run env cd born
        ['0', '5', '3'] := by
    show st.run env cd born _ = _
    rw [run_append, run_append, e1, e2]
  have hc : o1.psPhonon = some v := phonon_cached env st.obj
  have g2 := getPhonon_s env { o1 with s := { o1.s with memCoef := n } }
  have g3 := phonon_again env { o1 with s := { o1.s with memCoef := n } } v hc
  simp only [gs] at g2 g3
  rw [e3]
  simp only [Session.run, List.foldl_cons, List.foldl_nil, Session.step, Session.mainKey, Session.spectraKey,
    Session.display, Session.toMain, Char.reduceEq, if_true, if_false, hr1, hr, Session.prefsKey, g2, g3, gs]
  exact ⟨trivial, by simp⟩

/-- C98, violated: a wave vector typed with a wrong number of components and then corrected leaves the old results in
place, whatever the routines compute: the power spectrum plotted for the new wave vector is the one of the old. -/
theorem C98_wave_violated (env : QEnv K V (List K)) (cd : NumCodec K) (born : Bool) (st : Session K V) (hm : st.menu = .main)
    (hr : st.obj.s.freq.range ≠ []) (line1 line2 : List Char) (q1 q2 : List K) (hn1 : '\n' ∉ line1) (hn2 : '\n' ∉ line2)
    (hl1 : line1.length ≤ 60) (hl2 : line2.length ≤ 60) (h1 : cd.vector line1 = some q1) (h2 : cd.vector line2 = some q2)
    (hlen1 : q1.length ≠ st.obj.s.q.length) (hlen2 : q2.length = st.obj.s.q.length) :
    let fin := st.run env cd born
      (['5', '3', '0', '2'] ++ (line1 ++ ['\n']) ++ ['2'] ++ (line2 ++ ['\n']) ++ ['5', '3'])
    fin.obj.s = { st.obj.s with q := q2 } ∧
    fin.shown = st.shown ++ [.phonon st.obj.s.freq.range (st.obj.getPhonon env).2,
      .phonon st.obj.s.freq.range (st.obj.getPhonon env).2] := by
  intro fin
  have gs := getPhonon_s env st.obj
  have hc : (st.obj.getPhonon env).1.psPhonon = some (st.obj.getPhonon env).2 := phonon_cached env st.obj
  set o1 := (st.obj.getPhonon env).1 with ho1
  set v := (st.obj.getPhonon env).2 with hv
  have hr1 : o1.s.freq.range ≠ [] := by rw [gs]; exact hr
  have e1 : st.run env cd born ['5', '3', '0', '2'] = { st with menu := .ask .wave [], obj := o1, shown := st.shown ++ [.phonon st.obj.s.freq.range v] } := by
    simp only [Session.run, List.foldl_cons, List.foldl_nil, Session.step, hm, Session.mainKey, Session.spectraKey,
      Session.display, Session.toMain, ← ho1, ← hv, Char.reduceEq, if_true, if_false, hr1]
  have e2 := run_line env cd born .wave line1 hn1 [] { st with menu := .ask .wave [], obj := o1, shown := st.shown ++ [.phonon st.obj.s.freq.range v] } rfl (by simpa using hl1)
  simp only [List.nil_append, Session.answer, h1, Option.map_some, Option.getD_some, Quasi.setQAny, gs, if_neg hlen1,
    Session.toMain, if_neg hr] at e2
  have e3 := run_line env cd born .wave line2 hn2 [] { st with menu := .ask .wave [], obj := { o1 with s := { st.obj.s with q := q1 } }, shown := st.shown ++ [.phonon st.obj.s.freq.range v] } rfl (by simpa using hl2)
  have hlen3 : q2.length ≠ q1.length := by omega
  simp only [List.nil_append, Session.answer, h2, Option.map_some, Option.getD_some, Quasi.setQAny, if_neg hlen3,
    Session.toMain, if_neg hr] at e3
  have e4 : fin = ({ st with menu := .main, obj := { o1 with s := { st.obj.s with q := q2 } }, shown := st.shown ++ [.phonon st.obj.s.freq.range v] } : Session K V).run env cd born
        ['5', '3'] := by
    show st.run env cd born _ = _
    simp only [run_append] at e2 e3 ⊢
    rw [e1, e2, ← e3]
    simp [Session.run, Session.step, Session.mainKey]
  have g2 := getPhonon_s env { o1 with s := { st.obj.s with q := q2 } }
  have g3 := phonon_again env { o1 with s := { st.obj.s with q := q2 } } v hc
  rw [e4]
  simp only [Session.run, List.foldl_cons, List.foldl_nil, Session.step, Session.mainKey, Session.spectraKey,
    Session.display, Char.reduceEq, if_true, if_false, g2, g3]
  exact ⟨trivial, by simp⟩

/-- C98, violated: in the menu of the non analytical corrections (1: on, 2: off) the key 0, elsewhere "return", switches them on,
a key that is not a digit ends the program with an exception, and without a `BORN` file the choice is ignored. -/
theorem C98_nac_violated (env : QEnv K V (List K)) (cd : NumCodec K) (st : Session K V) (hm : st.menu = .nac) :
    (st.step env cd true '0').obj.s = { st.obj.s with nac := true } ∧
    (st.step env cd true '1').obj.s = { st.obj.s with nac := true } ∧
    (st.step env cd true '2').obj.s = { st.obj.s with nac := false } ∧
    (∀ c, keyDigit c = none → ∀ b, (st.step env cd b c).menu = .crashed) ∧
    (∀ c, (st.step env cd false c).obj = st.obj) := by
  have k0 : keyDigit '0' = some 0 := rfl
  have k1 : keyDigit '1' = some 1 := rfl
  have k2 : keyDigit '2' = some 2 := rfl
  refine ⟨?_, ?_, ?_, ?_, ?_⟩
  · simp [Session.step, hm, Session.nacKey, k0, Quasi.setNAC]
  · simp [Session.step, hm, Session.nacKey, k1, Quasi.setNAC]
  · simp [Session.step, hm, Session.nacKey, k2, Quasi.setNAC]
  · intro c hc b; simp [Session.step, hm, Session.nacKey, hc]
  · intro c
    simp only [Session.step, hm, Session.nacKey]
    split
    · rfl
    · split_ifs
      · rfl
      · rename_i h; cases h
      · rfl

/-! ## Examples -/

def menuEnv : QEnv ℚ (List ℚ) (List ℚ) where
  eig q := 1 :: q
  frq q := q
  proj q p := 2 :: (p : ℚ) :: q
  phon a b := a ++ b
  spec a m r x := (a : ℚ) :: (m : ℚ) :: (r ++ x)
  flat v := 3 :: v
  avg l := l.flatten
  sumCols v := 4 :: v
  vel p c := [5, p, c]
  partials f := f [6]
  equiv q := [q]
  fit v r h q f d := (h.map (· + f), (if d then v else r ++ q).take 3)
  gamma q := q.all (· = 0)
  dosLimit := 2
  points := [[0, 0, 0], [1 / 2, 0, 0]]
  seekPath := [([0, 0, 0], [1 / 2, 0, 0])]
  bands l n := [(l.length : ℚ), if n then 1 else 0]

def menuCodec : NumCodec ℚ where
  frac l := if l ≠ [] ∧ l.all Char.isDigit then some (l.foldl (fun a c => 10 * a + (c.toNat - 48 : ℕ)) 0) else none
  num l := if l ≠ [] ∧ l.all Char.isDigit then some (l.foldl (fun a c => 10 * a + (c.toNat - 48 : ℕ)) 0) else none
  int l := if l ≠ [] ∧ l.all Char.isDigit then some (l.foldl (fun a c => 10 * a + (c.toNat - 48 : ℕ)) 0) else none

def menuSettings : QSettings ℚ (List ℚ) :=
  { q := [0, 0, 1], alg := 0, memCoef := 10, freq := ⟨1 / 2, [0, 1 / 2, 1]⟩, fitFn := 0, projAtom := -1, sym := true,
    nac := false, bandRanges := none }

/-- The hypotheses of the violations are met, and the two spectra that should be plotted differ. -/
example : menuCodec.int ['7'] = some 7 ∧ menuCodec.vector ['1'] = some [1] ∧
    menuCodec.vector ['1', ',', '0', ',', '2'] = some [1, 0, 2] ∧
    ((Quasi.fresh menuSettings : Quasi ℚ (List ℚ) (List ℚ)).getPhonon menuEnv).2 ≠
      ((Quasi.fresh { menuSettings with memCoef := 7 } : Quasi ℚ (List ℚ) (List ℚ)).getPhonon menuEnv).2 ∧
    ((Quasi.fresh menuSettings : Quasi ℚ (List ℚ) (List ℚ)).getPhonon menuEnv).2 ≠
      ((Quasi.fresh { menuSettings with q := [1, 0, 2] } : Quasi ℚ (List ℚ) (List ℚ)).getPhonon menuEnv).2 := by
  decide +kernel

theorem menu_valid : menuSettings.freq.Valid := by
  refine ⟨by decide +kernel, by simp [menuSettings], by decide +kernel⟩

/-- C98, violated: in the table of thermal properties (key 3) the harmonic column is integrated up to the end of the frequency
range the user has set, the quasiparticle column up to the end of the automatic range set in between. -/
theorem C98_thermal_violated : ∃ (env : QEnv ℚ (List ℚ) (List ℚ)) (cd : NumCodec ℚ) (s : QSettings ℚ (List ℚ)),
    s.freq.Valid ∧ 0 < env.dosLimit ∧ ∃ t c t',
    (({ obj := Quasi.fresh s } : Session ℚ (List ℚ)).run env cd true ['3']).shown = [.thermal t c t'] ∧
    t = s.freq.range.getLast? ∧ t ≠ t' :=
  ⟨menuEnv, menuCodec, menuSettings, menu_valid, by decide +kernel, menuSettings.freq.range.getLast?,
    ((Quasi.fresh menuSettings : Quasi ℚ (List ℚ) (List ℚ)).getCom menuEnv).2,
    ((Quasi.fresh menuSettings : Quasi ℚ (List ℚ) (List ℚ)).getCom menuEnv).1.s.freq.range.getLast?,
    by simp [Session.run, Session.step, Session.mainKey, Session.display, Quasi.fresh], rfl, by decide +kernel⟩

/-- A test for `Sensible`. -/
def sensibleCheck (env : QEnv ℚ (List ℚ) (List ℚ)) (cd : NumCodec ℚ) (born : Bool) : Session ℚ (List ℚ) → List Char → Bool
  | _, [] => true
  | st, c :: ks =>
    (if c = '\n' then
      match st.menu with
      | .ask .wave line => (cd.vector line).all fun q => q.length = st.obj.s.q.length
      | .ask .mem line => (cd.int line).all fun n => n = st.obj.s.memCoef
      | .ask .resolution line => (cd.num line).all fun r => 0 < r
      | .ask .limits line => (cd.vector line).all fun v => match v with
        | a :: b :: _ => a ≤ b
        | _ => true
      | _ => true
     else true) && sensibleCheck env cd born (st.step env cd born c) ks

theorem sensible_of_check (env : QEnv ℚ (List ℚ) (List ℚ)) (cd : NumCodec ℚ) (born : Bool) (ks : List Char) :
    ∀ st : Session ℚ (List ℚ), sensibleCheck env cd born st ks = true → Sensible env cd born st ks := by
  induction ks with
  | nil => intro st _; trivial
  | cons c ks ih =>
    intro st h
    simp only [sensibleCheck, Bool.and_eq_true] at h
    refine ⟨?_, ih _ h.2⟩
    intro p line hm hc
    have h1 := h.1
    rw [if_pos hc, hm] at h1
    cases p <;> simp only at h1 ⊢
    · intro q hq; rw [hq] at h1; simpa using h1
    · intro n hn; rw [hn] at h1; simpa using h1
    · intro r hr; rw [hr] at h1; simpa using h1
    · intro a b l hv; rw [hv] at h1; simpa using h1

/-- A session that meets the hypotheses of `C98_consistent_partial`: spectra, wave vector, algorithm, limits, dispersion,
thermal properties. -/
example : ∃ keys, Sensible menuEnv menuCodec true ({ obj := Quasi.fresh menuSettings } : Session ℚ (List ℚ)) keys ∧
    (({ obj := Quasi.fresh menuSettings } : Session ℚ (List ℚ)).run menuEnv menuCodec true keys).menu = .done ∧
    (({ obj := Quasi.fresh menuSettings } : Session ℚ (List ℚ)).run menuEnv menuCodec true keys).shown.length = 4 ∧
    (({ obj := Quasi.fresh menuSettings } : Session ℚ (List ℚ)).run menuEnv menuCodec true keys).obj.s.q = [1, 0, 2] := by
  refine ⟨['5', '3', '0', '2', '1', ',', '0', ',', '2', '\n', '5', '3', '0', '9', '1', '2', '8', '1', ',', '5', '\n', '0',
    '6', '1', '0', '3', '0'], ?_⟩
  refine ⟨sensible_of_check _ _ _ _ _ (by decide +kernel), by decide +kernel, by decide +kernel, by decide +kernel⟩

end Verif
