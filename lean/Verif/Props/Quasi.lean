import Verif.Model.Quasi
import Verif.Props.Settings

/-! # C33, C34, C36: caches and settings of the Quasiparticle object -/

set_option autoImplicit false
set_option linter.unusedSectionVars false

namespace Verif

variable {K V Q : Type*} [Field K] [LinearOrder K] [IsStrictOrderedRing K] [FloorRing K] [DecidableEq Q]

/-! ## Specification: the results as functions of the settings alone -/

/-- The power spectrum of some data with settings `s`. -/
def specData (env : QEnv K V Q) (s : QSettings K Q) (x : V) : V := env.spec s.alg s.memCoef s.freq.range x

/-- Phonon power spectrum at wave vector `q`: average over the equivalent wave vectors, or only `q` without symmetry. -/
def specPhonon (env : QEnv K V Q) (s : QSettings K Q) (q : Q) : V :=
  if s.sym then env.avg ((env.equiv q).map fun q' => specData env s (env.phon (env.proj q' s.projAtom) (env.eig q')))
  else specData env s (env.phon (env.proj q s.projAtom) (env.eig q))

/-- Wave vector power spectrum before the columns are added. -/
def specWave (env : QEnv K V Q) (s : QSettings K Q) (q : Q) : V :=
  if s.sym then env.avg ((env.equiv q).map fun q' => specData env s (env.flat (env.proj q' s.projAtom)))
  else specData env s (env.flat (env.proj q s.projAtom))

/-- Full power spectrum. -/
def specFull (env : QEnv K V Q) (s : QSettings K Q) : V :=
  env.sumCols (specData env s (env.vel s.projAtom (-1)))

/-- The quasiparticle entry fitted at `q`. -/
def fitEntry (env : QEnv K V Q) (s : QSettings K Q) (q : Q) : ComEntry K V Q :=
  let d := env.fit (specPhonon env s q) s.freq.range (env.frq q) q s.fitFn s.sym
  let pos := if env.gamma q then zeroAcoustic d.1 else d.1
  let wid := if env.gamma q then zeroAcoustic d.2 else d.2
  { q := q, eig := env.eig q, freqs := pos, widths := wid, shifts := List.zipWith (· - ·) pos (env.frq q) }

/-- Next entry of the commensurate-point data. -/
def comNext (env : QEnv K V Q) (s : QSettings K Q) (acc : List (ComEntry K V Q)) (q : Q) : List (ComEntry K V Q) :=
  let i := vectorInList (env.equiv q) (acc.map (·.q))
  acc ++ [if h : i ≠ 0 ∧ s.sym = true ∧ i < acc.length then
      { q := q, eig := env.eig q, freqs := acc[i].freqs, widths := acc[i].widths, shifts := acc[i].shifts }
    else fitEntry env s q]

/-- Settings with the automatic frequency range. -/
def autoRange (env : QEnv K V Q) (s : QSettings K Q) : QSettings K Q :=
  { s with freq := { s.freq with range := arange 0 (env.dosLimit + s.freq.resolution) s.freq.resolution } }

def specCom (env : QEnv K V Q) (s : QSettings K Q) : List (ComEntry K V Q) :=
  env.points.foldl (comNext env (autoRange env s)) []

/-! ## Invariant -/

/-- A cache is empty or holds the right value. -/
def CacheOk {α : Type*} (c : Option α) (x : α) : Prop := ∀ v, c = some v → v = x

theorem CacheOk.none {α : Type*} (x : α) : CacheOk none x := by intro v h; simp at h
theorem CacheOk.some {α : Type*} (x : α) : CacheOk (some x) x := by intro v h; simpa using h.symm

structure QInv (env : QEnv K V Q) (o : Quasi K V Q) : Prop where
  valid : o.s.freq.Valid
  eig : CacheOk o.eig (env.eig o.s.q)
  frq : CacheOk o.frq (env.frq o.s.q)
  vc : CacheOk o.vc (env.proj o.s.q o.s.projAtom)
  vq : CacheOk o.vq (env.phon (env.proj o.s.q o.s.projAtom) (env.eig o.s.q))
  phonon : CacheOk o.psPhonon (specPhonon env o.s o.s.q)
  wave : CacheOk o.psWave (specWave env o.s o.s.q)
  full : CacheOk o.psFull (specFull env o.s)
  bands : CacheOk o.bands (env.bands (o.s.bandRanges.getD env.seekPath) o.s.nac)
  com : ∀ c, o.com = some c → o.s.freq = (autoRange env o.s).freq ∧ c = specCom env o.s

theorem QInv.fresh (env : QEnv K V Q) (s : QSettings K Q) (h : s.freq.Valid) : QInv env (Quasi.fresh s : Quasi K V Q) where
  valid := h
  eig := CacheOk.none _
  frq := CacheOk.none _
  vc := CacheOk.none _
  vq := CacheOk.none _
  phonon := CacheOk.none _
  wave := CacheOk.none _
  full := CacheOk.none _
  bands := CacheOk.none _
  com := by intro c h; simp [Quasi.fresh] at h

section indep
variable (env : QEnv K V Q)

/-- The spectra do not read `s.q`, `s.fitFn`. -/
theorem specPhonon_q (s : QSettings K Q) (q q' : Q) : specPhonon env { s with q := q' } q = specPhonon env s q := rfl
theorem specCom_q (s : QSettings K Q) (q : Q) : specCom env { s with q := q } = specCom env s := rfl

end indep

theorem QInv.setQ {env : QEnv K V Q} {o : Quasi K V Q} (h : QInv env o) (q : Q) : QInv env (o.setQ q) := by
  unfold Quasi.setQ
  by_cases hq : q ≠ o.s.q
  · simp only [if_pos hq, Quasi.fullClear]
    exact ⟨h.valid, CacheOk.none _, CacheOk.none _, CacheOk.none _, CacheOk.none _, CacheOk.none _, CacheOk.none _,
      CacheOk.none _, h.bands, h.com⟩
  · simp only [if_neg hq]
    rw [not_not] at hq
    subst hq
    exact h

@[simp] theorem Quasi.setQ_s (o : Quasi K V Q) (q : Q) : (o.setQ q).s = { o.s with q := q } := by
  unfold Quasi.setQ Quasi.fullClear; split <;> simp_all
@[simp] theorem Quasi.setQ_com (o : Quasi K V Q) (q : Q) : (o.setQ q).com = o.com := by
  unfold Quasi.setQ Quasi.fullClear; split <;> rfl

/-- What a correct getter does: right value, settings and commensurate data kept, invariant kept. -/
structure Good {α : Type*} (env : QEnv K V Q) (o : Quasi K V Q) (r : Quasi K V Q × α) (x : α) : Prop where
  inv : QInv env r.1
  s : r.1.s = o.s
  com : r.1.com = o.com
  val : r.2 = x

theorem QInv.getEig {env : QEnv K V Q} {o : Quasi K V Q} (h : QInv env o) : Good env o (o.getEig env) (env.eig o.s.q) := by
  unfold Quasi.getEig
  split
  · rename_i e he; exact ⟨h, rfl, rfl, h.eig e he⟩
  · exact ⟨{ h with eig := CacheOk.some _, frq := CacheOk.some _ }, rfl, rfl, rfl⟩

theorem QInv.getFrq {env : QEnv K V Q} {o : Quasi K V Q} (h : QInv env o) : Good env o (o.getFrq env) (env.frq o.s.q) := by
  unfold Quasi.getFrq
  split
  · rename_i e he; exact ⟨h, rfl, rfl, h.frq e he⟩
  · exact ⟨{ h with eig := CacheOk.some _, frq := CacheOk.some _ }, rfl, rfl, rfl⟩

theorem QInv.getVc {env : QEnv K V Q} {o : Quasi K V Q} (h : QInv env o) :
    Good env o (o.getVc env) (env.proj o.s.q o.s.projAtom) := by
  unfold Quasi.getVc
  split
  · rename_i e he; exact ⟨h, rfl, rfl, h.vc e he⟩
  · exact ⟨{ h with vc := CacheOk.some _ }, rfl, rfl, rfl⟩

theorem QInv.getVq {env : QEnv K V Q} {o : Quasi K V Q} (h : QInv env o) :
    Good env o (o.getVq env) (env.phon (env.proj o.s.q o.s.projAtom) (env.eig o.s.q)) := by
  unfold Quasi.getVq
  split
  · rename_i e he; exact ⟨h, rfl, rfl, h.vq e he⟩
  · have g1 := h.getVc
    have g2 := g1.inv.getEig
    have hs := g2.s.trans g1.s
    have hval := g2.val
    rw [g1.s] at hval
    refine ⟨{ g2.inv with vq := ?_ }, hs, g2.com.trans g1.com, ?_⟩
    · simp only [hs, g1.val, hval]; exact CacheOk.some _
    · simp only [g1.val, hval]

theorem phonon_fold {env : QEnv K V Q} (l : List Q) : ∀ (r : Quasi K V Q × List V), QInv env r.1 →
    QInv env (l.foldl (Quasi.phononStep env) r).1 ∧
    (∃ q, (l.foldl (Quasi.phononStep env) r).1.s = { r.1.s with q := q }) ∧
    (l.foldl (Quasi.phononStep env) r).1.com = r.1.com ∧
    (l.foldl (Quasi.phononStep env) r).2 =
      r.2 ++ l.map fun q' => specData env r.1.s (env.phon (env.proj q' r.1.s.projAtom) (env.eig q')) := by
  induction l with
  | nil => intro r h; exact ⟨h, ⟨r.1.s.q, rfl⟩, rfl, by simp⟩
  | cons q l ih =>
    intro r h
    have g := (h.setQ q).getVq
    obtain ⟨i1, ⟨q', i2⟩, i3, i4⟩ := ih (Quasi.phononStep env r q) g.inv
    have e : (Quasi.phononStep env r q).1.s = { r.1.s with q := q } := by
      unfold Quasi.phononStep; rw [g.s]; simp
    rw [List.foldl_cons]
    refine ⟨i1, ⟨q', by rw [i2, e]⟩, by rw [i3]; unfold Quasi.phononStep; rw [g.com]; simp, ?_⟩
    rw [i4, e]
    have : (Quasi.phononStep env r q).2 =
        r.2 ++ [specData env r.1.s (env.phon (env.proj q r.1.s.projAtom) (env.eig q))] := by
      unfold Quasi.phononStep Quasi.spectrum specData
      dsimp only; rw [g.val, g.s]; simp
    rw [this]
    simp [specData]

theorem wave_fold {env : QEnv K V Q} (l : List Q) : ∀ (r : Quasi K V Q × List V), QInv env r.1 →
    QInv env (l.foldl (Quasi.waveStep env) r).1 ∧
    (∃ q, (l.foldl (Quasi.waveStep env) r).1.s = { r.1.s with q := q }) ∧
    (l.foldl (Quasi.waveStep env) r).1.com = r.1.com ∧
    (l.foldl (Quasi.waveStep env) r).2 =
      r.2 ++ l.map fun q' => specData env r.1.s (env.flat (env.proj q' r.1.s.projAtom)) := by
  induction l with
  | nil => intro r h; exact ⟨h, ⟨r.1.s.q, rfl⟩, rfl, by simp⟩
  | cons q l ih =>
    intro r h
    have g := (h.setQ q).getVc
    obtain ⟨i1, ⟨q', i2⟩, i3, i4⟩ := ih (Quasi.waveStep env r q) g.inv
    have e : (Quasi.waveStep env r q).1.s = { r.1.s with q := q } := by
      unfold Quasi.waveStep; rw [g.s]; simp
    rw [List.foldl_cons]
    refine ⟨i1, ⟨q', by rw [i2, e]⟩, by rw [i3]; unfold Quasi.waveStep; rw [g.com]; simp, ?_⟩
    rw [i4, e]
    have : (Quasi.waveStep env r q).2 =
        r.2 ++ [specData env r.1.s (env.flat (env.proj q r.1.s.projAtom))] := by
      unfold Quasi.waveStep Quasi.spectrum specData
      dsimp only; rw [g.val, g.s]; simp
    rw [this]
    simp [specData]

theorem QInv.getPhonon {env : QEnv K V Q} {o : Quasi K V Q} (h : QInv env o) :
    Good env o (o.getPhonon env) (specPhonon env o.s o.s.q) := by
  unfold Quasi.getPhonon
  split
  · rename_i e he; exact ⟨h, rfl, rfl, h.phonon e he⟩
  · by_cases hsym : o.s.sym = true
    · rw [if_pos hsym]
      obtain ⟨i1, ⟨q', i2⟩, i3, i4⟩ := phonon_fold (env.equiv o.s.q) (o, []) h
      have hs : (((env.equiv o.s.q).foldl (Quasi.phononStep env) (o, [])).1.setQ o.s.q).s = o.s := by simp [i2]
      have hp : env.avg ((env.equiv o.s.q).foldl (Quasi.phononStep env) (o, [])).2 = specPhonon env o.s o.s.q := by
        rw [i4]; unfold specPhonon; rw [if_pos hsym]; simp
      refine ⟨{ i1.setQ o.s.q with phonon := ?_ }, hs, by simp [i3], hp⟩
      simp only [hs, hp]; exact CacheOk.some _
    · rw [if_neg hsym]
      have g := h.getVq
      have hp : (o.getVq env).1.spectrum env (o.getVq env).2 = specPhonon env o.s o.s.q := by
        unfold Quasi.spectrum specPhonon specData; rw [if_neg hsym, g.val, g.s]
      refine ⟨{ g.inv with phonon := ?_ }, g.s, g.com, hp⟩
      simp only [g.s, hp]; exact CacheOk.some _

theorem QInv.getWave {env : QEnv K V Q} {o : Quasi K V Q} (h : QInv env o) :
    Good env o (o.getWave env) (env.sumCols (specWave env o.s o.s.q)) := by
  unfold Quasi.getWave
  split
  · rename_i e he; exact ⟨h, rfl, rfl, by rw [h.wave e he]⟩
  · have g0 := h.getVc
    by_cases hsym : o.s.sym = true
    · simp only [if_pos hsym]
      have e0 : (o.getVc env).1.s.q = o.s.q := by rw [g0.s]
      obtain ⟨i1, ⟨q', i2⟩, i3, i4⟩ := wave_fold (env.equiv (o.getVc env).1.s.q) ((o.getVc env).1, []) g0.inv
      have hs : (((env.equiv (o.getVc env).1.s.q).foldl (Quasi.waveStep env) ((o.getVc env).1, [])).1.setQ
          (o.getVc env).1.s.q).s = o.s := by
        rw [Quasi.setQ_s, i2, g0.s]
      have hp : env.avg ((env.equiv (o.getVc env).1.s.q).foldl (Quasi.waveStep env) ((o.getVc env).1, [])).2 =
          specWave env o.s o.s.q := by
        rw [i4]; unfold specWave; rw [if_pos hsym, g0.s]; simp
      refine ⟨{ i1.setQ _ with wave := ?_ }, hs, by simp [i3, g0.com], by rw [hp]⟩
      simp only [hs, hp]; exact CacheOk.some _
    · simp only [if_neg hsym]
      have g := g0.inv.getVc
      have hs := g.s.trans g0.s
      have hp : ((o.getVc env).1.getVc env).1.spectrum env (env.flat ((o.getVc env).1.getVc env).2) =
          specWave env o.s o.s.q := by
        unfold Quasi.spectrum specWave specData; rw [if_neg hsym, g.val, hs, g0.s]
      refine ⟨{ g.inv with wave := ?_ }, hs, g.com.trans g0.com, by rw [hp]⟩
      simp only [hs, hp]; exact CacheOk.some _

theorem QInv.getFull {env : QEnv K V Q} {o : Quasi K V Q} (h : QInv env o) :
    Good env o (o.getFull env (-1)) (specFull env o.s) := by
  unfold Quasi.getFull
  split
  · rename_i e he; exact ⟨h, rfl, rfl, h.full e he⟩
  · exact ⟨{ h with full := CacheOk.some _ }, rfl, rfl, rfl⟩

theorem QInv.powerSpectraClear {env : QEnv K V Q} {o : Quasi K V Q} (h : QInv env o) (s : QSettings K Q)
    (hq : s.q = o.s.q) (hp : s.projAtom = o.s.projAtom) (hv : s.freq.Valid) :
    QInv env { o.powerSpectraClear with s := s } := by
  unfold Quasi.powerSpectraClear Quasi.forceConstantsClear Quasi.bandsClear
  refine ⟨hv, ?_, ?_, ?_, ?_, CacheOk.none _, CacheOk.none _, CacheOk.none _, CacheOk.none _, by intro c hc; simp at hc⟩
  · simpa only [hq] using h.eig
  · simpa only [hq] using h.frq
  · simpa only [hq, hp] using h.vc
  · simpa only [hq, hp] using h.vq

theorem QInv.setAlg {env : QEnv K V Q} {o o' : Quasi K V Q} (h : QInv env o) (n : ℕ) (e : o.setAlg n = some o') :
    QInv env o' ∧ o'.s = { o.s with alg := n } := by
  unfold Quasi.setAlg at e
  split at e
  · split at e
    · simp only [Option.some.injEq] at e; subst e
      exact ⟨h.powerSpectraClear _ rfl rfl h.valid, rfl⟩
    · rename_i hn; simp only [Option.some.injEq] at e; subst e
      rw [not_not] at hn; subst hn
      exact ⟨h, rfl⟩
  · simp at e

theorem QInv.setMem {env : QEnv K V Q} {o : Quasi K V Q} (h : QInv env o) (n : ℕ) :
    QInv env (o.setMem n) ∧ (o.setMem n).s = { o.s with memCoef := n } :=
  ⟨h.powerSpectraClear _ rfl rfl h.valid, rfl⟩

theorem QInv.setFit {env : QEnv K V Q} {o o' : Quasi K V Q} (h : QInv env o) (n : ℕ) (e : o.setFit n = some o') :
    QInv env o' ∧ o'.s = { o.s with fitFn := n } := by
  unfold Quasi.setFit at e
  split at e
  · split at e
    · simp only [Option.some.injEq] at e; subst e
      exact ⟨{ h with com := (by intro c hc; simp [Quasi.forceConstantsClear, Quasi.bandsClear] at hc), bands := CacheOk.none _ }, rfl⟩
    · rename_i hn; simp only [Option.some.injEq] at e; subst e
      rw [not_not] at hn; subst hn
      exact ⟨h, rfl⟩
  · simp at e

theorem FreqSettings.setLimits_eq (f : FreqSettings K) (hf : f.Valid) (a b : K) (hab : a ≤ b) :
    (f.setLimits a b).1 = { f with range := arange a (b + f.resolution) f.resolution } ∧ (f.setLimits a b).1.Valid ∧
    ((f.setLimits a b).2 = false → (f.setLimits a b).1 = f) := by
  have hg := isGrid_arange a b f.resolution hf.1 hab
  have := f.setRange_range hf.2 _ (hg.increasing hf.1)
  unfold FreqSettings.setLimits
  rw [this.1]
  refine ⟨rfl, ⟨hf.1, hg.increasing hf.1⟩, fun hc => ?_⟩
  have h2 := this.2
  rw [hc] at h2
  have : f.range = arange a (b + f.resolution) f.resolution := by
    by_contra hne; exact absurd (h2.2 hne) (by simp)
  rw [← this]

theorem QInv.setLimits {env : QEnv K V Q} {o : Quasi K V Q} (h : QInv env o) (a b : K) (hab : a ≤ b) :
    QInv env (o.setLimits a b) ∧
    (o.setLimits a b).s = { o.s with freq := { o.s.freq with range := arange a (b + o.s.freq.resolution) o.s.freq.resolution } } ∧
    (o.com = none → (o.setLimits a b).com = none) := by
  obtain ⟨e1, e2, e3⟩ := o.s.freq.setLimits_eq h.valid a b hab
  unfold Quasi.setLimits Quasi.withFreq
  cases hc : (o.s.freq.setLimits a b).2
  · simp only [Bool.false_eq_true, if_false]
    rw [e3 hc]
    rw [e3 hc] at e1
    exact ⟨h, by rw [← e1], fun h => h⟩
  · simp only [if_true]
    exact ⟨h.powerSpectraClear _ rfl rfl e2, by rw [e1]; rfl, fun _ => rfl⟩

/-- Two grids with the same points and at least two of them have the same step. -/
theorem grid_step {l : List K} {a b r a' b' r' : K} (hr : 0 < r) (h : IsGrid l a b r) (h' : IsGrid l a' b' r') (hab : a < b) :
    r = r' := by
  obtain ⟨n, rfl, h1, h2⟩ := h
  obtain ⟨m, h3, h4, h5⟩ := h'
  have hn : 1 ≤ n := by
    by_contra hn
    obtain rfl : n = 0 := by omega
    simp at h1; linarith
  have hlen := congrArg List.length h3
  simp at hlen
  obtain rfl : n = m := hlen
  have g0 := congrArg (fun l => l[0]?) h3
  have g1 := congrArg (fun l => l[1]?) h3
  have l1 : 1 < n + 1 := by omega
  simp [l1] at g0 g1
  linarith [g0, g1]

theorem QInv.setResolution {env : QEnv K V Q} {o o' : Quasi K V Q} (hd : 0 < env.dosLimit) (h : QInv env o) (r : K)
    (hr : 0 < r) (e : o.setResolution r = some o') : QInv env o' := by
  obtain ⟨s', c, a, b, e1, ha, hb, hg, hres, hc⟩ := C39_resolution o.s.freq h.valid r hr
  unfold Quasi.setResolution at e
  rw [e1] at e
  simp only [Option.map_some, Option.some.injEq] at e
  subst e
  have hv : s'.Valid := ⟨by rw [hres]; exact hr, hg.increasing hr⟩
  unfold Quasi.withFreq
  cases hcc : c
  · have heq : s'.range = o.s.freq.range := by
      by_contra hne; rw [hcc] at hc; exact absurd (hc.2 hne) (by simp)
    simp only [Bool.false_eq_true, if_false]
    have hspec : ∀ x, specData env { o.s with freq := s' } x = specData env o.s x := by
      intro x; unfold specData; rw [← heq]
    refine ⟨hv, h.eig, h.frq, h.vc, h.vq, ?_, ?_, ?_, h.bands, ?_⟩
    · have := h.phonon; unfold specPhonon at this ⊢; simpa only [hspec] using this
    · have := h.wave; unfold specWave at this ⊢; simpa only [hspec] using this
    · have := h.full; unfold specFull at this ⊢; simpa only [hspec] using this
    · intro c hc
      obtain ⟨i1, i2⟩ := h.com c hc
      have hg0 : IsGrid o.s.freq.range 0 env.dosLimit o.s.freq.resolution := by
        rw [i1]; exact isGrid_arange 0 env.dosLimit _ h.valid.1 hd.le
      rw [heq] at hg
      have hstep := grid_step h.valid.1 hg0 hg hd
      have hs : s' = o.s.freq := by
        cases s'; cases hf : o.s.freq; rw [hf] at heq hstep; simp_all
      subst hs
      exact ⟨i1, i2⟩
  · simp only [if_true]
    exact h.powerSpectraClear _ rfl rfl hv

theorem com_fold {env : QEnv K V Q} (l : List Q) : ∀ (r : Quasi K V Q × List (ComEntry K V Q)), QInv env r.1 → r.1.com = none →
    QInv env (l.foldl (Quasi.comStep env) r).1 ∧
    (∃ q, (l.foldl (Quasi.comStep env) r).1.s = { r.1.s with q := q }) ∧
    (l.foldl (Quasi.comStep env) r).1.com = none ∧
    (l.foldl (Quasi.comStep env) r).2 = l.foldl (comNext env r.1.s) r.2 := by
  induction l with
  | nil => intro r h hc; exact ⟨h, ⟨r.1.s.q, rfl⟩, hc, rfl⟩
  | cons q l ih =>
    intro r h hc
    have key : QInv env (Quasi.comStep env r q).1 ∧ (Quasi.comStep env r q).1.s = { r.1.s with q := q } ∧
        (Quasi.comStep env r q).1.com = none ∧ (Quasi.comStep env r q).2 = comNext env r.1.s r.2 q := by
      have g2 := (h.setQ q).getEig
      have s2 : ((r.1.setQ q).getEig env).1.s = { r.1.s with q := q } := by rw [g2.s]; simp
      have c2 : ((r.1.setQ q).getEig env).1.com = none := by rw [g2.com]; simp [hc]
      have v2 : ((r.1.setQ q).getEig env).2 = env.eig q := by rw [g2.val]; simp
      unfold Quasi.comStep comNext
      simp only [s2, v2]
      by_cases hcond : vectorInList (env.equiv q) (r.2.map (·.q)) ≠ 0 ∧ r.1.s.sym = true ∧
          vectorInList (env.equiv q) (r.2.map (·.q)) < r.2.length
      · rw [dif_pos hcond, dif_pos hcond]
        exact ⟨g2.inv, s2, c2, rfl⟩
      · rw [dif_neg hcond, dif_neg hcond]
        have h3 := g2.inv.setQ q
        have s3 : (((r.1.setQ q).getEig env).1.setQ q).s = { r.1.s with q := q } := by simp [s2]
        have g4 := h3.getPhonon
        have g5 := g4.inv.getFrq
        have g6 := g5.inv.getFrq
        have s4 := g4.s.trans s3
        have s5 := g5.s.trans s4
        have s6 := g6.s.trans s5
        refine ⟨g6.inv, s6, ?_, ?_⟩
        · rw [g6.com, g5.com, g4.com, Quasi.setQ_com, c2]
        · simp only [g4.val, g5.val, g6.val, s3, s4, s5]
          rfl
    obtain ⟨k1, k2, k3, k4⟩ := key
    obtain ⟨i1, ⟨q', i2⟩, i3, i4⟩ := ih _ k1 k3
    rw [List.foldl_cons, List.foldl_cons]
    refine ⟨i1, ⟨q', by rw [i2, k2]⟩, i3, ?_⟩
    rw [i4, k4, k2]
    rfl

theorem QInv.getCom {env : QEnv K V Q} (hd : 0 < env.dosLimit) {o : Quasi K V Q} (h : QInv env o) :
    QInv env (o.getCom env).1 ∧ (o.getCom env).1.s.q = o.s.q ∧ (o.getCom env).2 = specCom env o.s ∧
    (o.getCom env).1.s = autoRange env o.s := by
  unfold Quasi.getCom
  split
  · rename_i c hc
    refine ⟨h, rfl, (h.com c hc).2, ?_⟩
    have := (h.com c hc).1
    simp only
    cases hs : o.s
    rw [hs] at this
    unfold autoRange at this ⊢
    simp only at this ⊢
    rw [← this]
  · rename_i hc
    obtain ⟨g1, g2, g3⟩ := h.setLimits (env := env) 0 env.dosLimit hd.le
    obtain ⟨i1, ⟨q', i2⟩, i3, i4⟩ := com_fold env.points (o.setLimits 0 env.dosLimit, []) g1 (g3 hc)
    simp only at i1 i2 i3 i4
    have hs : (o.setLimits 0 env.dosLimit).s = autoRange env o.s := g2
    have hv : (List.foldl (Quasi.comStep env) (o.setLimits 0 env.dosLimit, []) env.points).2 = specCom env o.s := by
      rw [i4, hs]; rfl
    refine ⟨QInv.setQ ?_ _, ?_, hv, ?_⟩
    · refine { i1 with com := ?_ }
      intro c hcc
      simp only [Option.some.injEq] at hcc
      subst hcc
      simp only [i2, hs]
      exact ⟨rfl, hv⟩
    · simp only [Quasi.setQ_s, hs]; rfl
    · simp only [Quasi.setQ_s, i2, hs]

theorem QInv.setNAC {env : QEnv K V Q} {o : Quasi K V Q} (h : QInv env o) (b : Bool) : QInv env (o.setNAC b) :=
  ⟨h.valid, h.eig, h.frq, h.vc, h.vq, h.phonon, h.wave, h.full, CacheOk.none _, h.com⟩

theorem QInv.setBandRanges {env : QEnv K V Q} {o : Quasi K V Q} (h : QInv env o) (l : List (Q × Q)) :
    QInv env (o.setBandRanges l) :=
  ⟨h.valid, h.eig, h.frq, h.vc, h.vq, h.phonon, h.wave, h.full, CacheOk.none _, h.com⟩

theorem QInv.getBands {env : QEnv K V Q} {o : Quasi K V Q} (h : QInv env o) :
    QInv env (o.getBands env).1 ∧ (o.getBands env).2 = env.bands (o.s.bandRanges.getD env.seekPath) o.s.nac := by
  unfold Quasi.getBands
  dsimp only
  split
  · rename_i v hv
    exact ⟨⟨h.valid, h.eig, h.frq, h.vc, h.vq, h.phonon, h.wave, h.full, h.bands, h.com⟩, h.bands v hv⟩
  · exact ⟨⟨h.valid, h.eig, h.frq, h.vc, h.vq, h.phonon, h.wave, h.full, CacheOk.some _, h.com⟩, rfl⟩

/-! ## C33: histories -/

/-- What a user does with the object between two results (constructor: `Quasi.fresh`). -/
inductive QOp (K Q : Type*)
  | setQ (q : Q) | setAlg (n : ℕ) | setMem (n : ℕ) | setFit (n : ℕ) | setLimits (a b : K) | setResolution (r : K)
  | setNAC (b : Bool) | setBandRanges (l : List (Q × Q)) | getBands
  | getEig | getFrq | getVc | getVq | getPhonon | getWave | getFull | getCom

/-- Arguments the API expects. -/
def QOp.Ok : QOp K Q → Prop
  | .setLimits a b => a ≤ b
  | .setResolution r => 0 < r
  | _ => True

/-- One call; `none`: the program exits or fails. -/
def Quasi.op (env : QEnv K V Q) (o : Quasi K V Q) : QOp K Q → Option (Quasi K V Q)
  | .setQ q => some (o.setQ q)
  | .setAlg n => o.setAlg n
  | .setMem n => some (o.setMem n)
  | .setFit n => o.setFit n
  | .setLimits a b => some (o.setLimits a b)
  | .setResolution r => o.setResolution r
  | .setNAC b => some (o.setNAC b)
  | .setBandRanges l => some (o.setBandRanges l)
  | .getBands => some (o.getBands env).1
  | .getEig => some (o.getEig env).1
  | .getFrq => some (o.getFrq env).1
  | .getVc => some (o.getVc env).1
  | .getVq => some (o.getVq env).1
  | .getPhonon => some (o.getPhonon env).1
  | .getWave => some (o.getWave env).1
  | .getFull => some (o.getFull env (-1)).1
  | .getCom => some (o.getCom env).1

theorem QInv.op {env : QEnv K V Q} (hd : 0 < env.dosLimit) {o o' : Quasi K V Q} (h : QInv env o) (p : QOp K Q) (hp : p.Ok)
    (e : o.op env p = some o') : QInv env o' := by
  cases p <;> simp only [Quasi.op, Option.some.injEq] at e
  case setAlg n => exact (h.setAlg n e).1
  case setFit n => exact (h.setFit n e).1
  case setResolution r => exact h.setResolution hd r hp e
  all_goals subst e
  case setQ q => exact h.setQ q
  case setMem n => exact (h.setMem n).1
  case setLimits a b => exact (h.setLimits a b hp).1
  case setNAC b => exact h.setNAC b
  case setBandRanges l => exact h.setBandRanges l
  case getBands => exact h.getBands.1
  case getEig => exact h.getEig.inv
  case getFrq => exact h.getFrq.inv
  case getVc => exact h.getVc.inv
  case getVq => exact h.getVq.inv
  case getPhonon => exact h.getPhonon.inv
  case getWave => exact h.getWave.inv
  case getFull => exact h.getFull.inv
  case getCom => exact (h.getCom hd).1

theorem QInv.run {env : QEnv K V Q} (hd : 0 < env.dosLimit) (l : List (QOp K Q)) : ∀ {o o' : Quasi K V Q}, QInv env o →
    (∀ p ∈ l, p.Ok) → l.foldlM (Quasi.op env) o = some o' → QInv env o' := by
  induction l with
  | nil => intro o o' h _ e; simp at e; subst e; exact h
  | cons p l ih =>
    intro o o' h hp e
    rw [List.foldlM_cons] at e
    obtain ⟨o1, e1, e2⟩ := Option.bind_eq_some_iff.1 e
    exact ih (h.op hd p (hp p (by simp)) e1) (fun x hx => hp x (by simp [hx])) e2

/-- C33 (part): after any sequence of setter and getter calls (`set_reduced_q_vector`, `select_power_spectra_algorithm`,
`set_number_of_mem_coefficients`, `select_fitting_function`, `set_frequency_limits`, `set_spectra_resolution`, `set_NAC`,
`set_band_ranges` and all getters below), every result is the one a new object with the current settings gives. Missing, and false (see the
`C33_..._violated` theorems): a history with `set_projection_onto_atom_type`, the partial power spectra, and the full
spectrum projected on a coordinate. -/
theorem C33_partial (env : QEnv K V Q) (hd : 0 < env.dosLimit) (s₀ : QSettings K Q) (h₀ : s₀.freq.Valid)
    (l : List (QOp K Q)) (hl : ∀ p ∈ l, p.Ok) (o : Quasi K V Q) (ho : l.foldlM (Quasi.op env) (Quasi.fresh s₀) = some o) :
    (o.getEig env).2 = ((Quasi.fresh o.s : Quasi K V Q).getEig env).2 ∧
    (o.getFrq env).2 = ((Quasi.fresh o.s : Quasi K V Q).getFrq env).2 ∧
    (o.getVc env).2 = ((Quasi.fresh o.s : Quasi K V Q).getVc env).2 ∧
    (o.getVq env).2 = ((Quasi.fresh o.s : Quasi K V Q).getVq env).2 ∧
    (o.getPhonon env).2 = ((Quasi.fresh o.s : Quasi K V Q).getPhonon env).2 ∧
    (o.getWave env).2 = ((Quasi.fresh o.s : Quasi K V Q).getWave env).2 ∧
    (o.getFull env (-1)).2 = ((Quasi.fresh o.s : Quasi K V Q).getFull env (-1)).2 ∧
    (o.getBands env).2 = ((Quasi.fresh o.s : Quasi K V Q).getBands env).2 ∧
    (o.getCom env).2 = ((Quasi.fresh o.s : Quasi K V Q).getCom env).2 := by
  have h := QInv.run hd l (QInv.fresh env s₀ h₀) hl ho
  have f := QInv.fresh (V := V) env o.s h.valid
  exact ⟨h.getEig.val.trans f.getEig.val.symm, h.getFrq.val.trans f.getFrq.val.symm, h.getVc.val.trans f.getVc.val.symm,
    h.getVq.val.trans f.getVq.val.symm, h.getPhonon.val.trans f.getPhonon.val.symm,
    h.getWave.val.trans f.getWave.val.symm, h.getFull.val.trans f.getFull.val.symm,
    h.getBands.2.trans f.getBands.2.symm, (h.getCom hd).2.2.1.trans (f.getCom hd).2.2.1.symm⟩

/-- C33: and the results of a new object are these functions of its settings: the spectra are averages over the
equivalent wave vectors of the spectra of the projected velocities. -/
theorem C33_values (env : QEnv K V Q) (s : QSettings K Q) (hs : s.freq.Valid) :
    ((Quasi.fresh s : Quasi K V Q).getPhonon env).2 =
      (if s.sym then env.avg ((env.equiv s.q).map fun q => env.spec s.alg s.memCoef s.freq.range
          (env.phon (env.proj q s.projAtom) (env.eig q)))
       else env.spec s.alg s.memCoef s.freq.range (env.phon (env.proj s.q s.projAtom) (env.eig s.q))) ∧
    ((Quasi.fresh s : Quasi K V Q).getWave env).2 = env.sumCols
      (if s.sym then env.avg ((env.equiv s.q).map fun q => env.spec s.alg s.memCoef s.freq.range
          (env.flat (env.proj q s.projAtom)))
       else env.spec s.alg s.memCoef s.freq.range (env.flat (env.proj s.q s.projAtom))) ∧
    ((Quasi.fresh s : Quasi K V Q).getFull env (-1)).2 =
      env.sumCols (env.spec s.alg s.memCoef s.freq.range (env.vel s.projAtom (-1))) ∧
    ((Quasi.fresh s : Quasi K V Q).getVq env).2 = env.phon (env.proj s.q s.projAtom) (env.eig s.q) := by
  have f := QInv.fresh (V := V) env s hs
  exact ⟨f.getPhonon.val, f.getWave.val, f.getFull.val, f.getVq.val⟩

/-- The setters do set: the settings after each setter call (the caches are the subject of `C33_partial`). -/
theorem C33_settings (o : Quasi K V Q) (hv : o.s.freq.Valid) (q : Q) (n : ℕ) (a b r : K) (hab : a ≤ b) (hr : 0 < r) :
    (o.setQ q).s = { o.s with q := q } ∧ (o.setMem n).s = { o.s with memCoef := n } ∧
    (n < 6 → ∃ o', o.setAlg n = some o' ∧ o'.s = { o.s with alg := n }) ∧
    (n < 3 → ∃ o', o.setFit n = some o' ∧ o'.s = { o.s with fitFn := n }) ∧
    (∃ f, (o.setLimits a b).s = { o.s with freq := f } ∧ IsGrid f.range a b o.s.freq.resolution ∧
      f.resolution = o.s.freq.resolution) ∧
    (∃ o' f, o.setResolution r = some o' ∧ o'.s = { o.s with freq := f } ∧ f.resolution = r) ∧
    (∀ x, (o.setNAC x).s = { o.s with nac := x }) ∧ (∀ x, (o.setBandRanges x).s = { o.s with bandRanges := some x }) := by
  refine ⟨by simp, rfl, ?_, ?_, ?_, ?_, fun _ => rfl, fun _ => rfl⟩
  · intro hn
    unfold Quasi.setAlg
    rw [if_pos hn]
    by_cases h : n ≠ o.s.alg
    · exact ⟨_, by rw [if_pos h], rfl⟩
    · exact ⟨_, by rw [if_neg h], by rw [not_not] at h; subst h; rfl⟩
  · intro hn
    unfold Quasi.setFit
    rw [if_pos hn]
    by_cases h : n ≠ o.s.fitFn
    · exact ⟨_, by rw [if_pos h], rfl⟩
    · exact ⟨_, by rw [if_neg h], by rw [not_not] at h; subst h; rfl⟩
  · obtain ⟨h1, h2, -⟩ := C39_limits o.s.freq hv a b hab
    refine ⟨_, ?_, h1, h2⟩
    unfold Quasi.setLimits Quasi.withFreq Quasi.powerSpectraClear Quasi.forceConstantsClear; split <;> rfl
  · obtain ⟨s', c, a, b, e1, -, -, -, hres, -⟩ := C39_resolution o.s.freq hv r hr
    refine ⟨_, s', by unfold Quasi.setResolution; rw [e1]; rfl, ?_, hres⟩
    unfold Quasi.withFreq Quasi.powerSpectraClear Quasi.forceConstantsClear; split <;> rfl

/-! ## A concrete environment -/

/-- Kernels that keep their arguments apart, for the examples: "arrays" are lists of numbers. -/
def demoEnv : QEnv ℚ (List ℚ) ℤ where
  eig q := [1, q]
  frq q := [q, q + 1, q + 2]
  proj q p := [2, q, p]
  phon a b := a ++ b
  spec a m r x := (a : ℚ) :: (m : ℚ) :: (r ++ x)
  flat v := 3 :: v
  avg l := l.flatten
  sumCols v := 4 :: v
  vel p c := [5, p, c]
  partials f := f [6]
  equiv q := if q = 0 then [0] else [q, -q]
  fit v r h q f d := (h.map (· + q + f), (if d then v else r).take 3)
  gamma q := q = 0
  dosLimit := 2
  points := [0, 1, 2, -1]
  seekPath := [(0, 1)]
  bands l n := (l.map fun (p : ℤ × ℤ) => (p.1 + 2 * p.2 : ℚ)) ++ [if n then 1 else 0]

def demoSettings : QSettings ℚ ℤ :=
  { q := 1, alg := 0, memCoef := 10, freq := ⟨1 / 2, [0, 1 / 2, 1]⟩, fitFn := 0, projAtom := -1, sym := true, nac := false,
    bandRanges := none }

theorem demo_valid : demoSettings.freq.Valid := by
  refine ⟨by decide +kernel, by simp [demoSettings], by decide +kernel⟩

/-- A history that meets the hypotheses of `C33_partial`, ending in a state with settings different from the first. -/
example :
    (([.getPhonon, .setAlg 2, .getCom, .setQ 2, .getVq, .setResolution (1 / 4), .getBands, .setNAC true, .getWave, .getFull] : List (QOp ℚ ℤ)).foldlM
      (Quasi.op demoEnv) (Quasi.fresh demoSettings : Quasi ℚ (List ℚ) ℤ)).map (fun o => (o.s.q, o.s.freq.resolution)) =
      some (2, 1 / 4) := by
  decide +kernel

/-- C33, violated: the atom projection is part of the settings, but `set_projection_onto_atom_type` clears no cache, so
the wave-vector projection (and everything computed from it) still belongs to the old setting. -/
theorem C33_projection_violated : ∃ (env : QEnv ℚ (List ℚ) ℤ) (s : QSettings ℚ ℤ), s.freq.Valid ∧
    let o := (((Quasi.fresh s : Quasi ℚ (List ℚ) ℤ).getPhonon env).1).setProj 1
    (o.getVc env).2 ≠ ((Quasi.fresh o.s : Quasi ℚ (List ℚ) ℤ).getVc env).2 ∧
    (o.getPhonon env).2 ≠ ((Quasi.fresh o.s : Quasi ℚ (List ℚ) ℤ).getPhonon env).2 :=
  ⟨demoEnv, { demoSettings with sym := false }, demo_valid, by decide +kernel⟩

/-- C33, violated: the partial power spectra are kept when the algorithm or the frequency range changes. -/
theorem C33_partials_violated : ∃ (env : QEnv ℚ (List ℚ) ℤ) (s : QSettings ℚ ℤ), s.freq.Valid ∧
    (∃ o, ((Quasi.fresh s : Quasi ℚ (List ℚ) ℤ).getPartials env).1.setAlg 2 = some o ∧
      (o.getPartials env).2 ≠ ((Quasi.fresh o.s : Quasi ℚ (List ℚ) ℤ).getPartials env).2) ∧
    (∃ o, ((Quasi.fresh s : Quasi ℚ (List ℚ) ℤ).getPartials env).1.setLimits 0 5 = o ∧
      (o.getPartials env).2 ≠ ((Quasi.fresh o.s : Quasi ℚ (List ℚ) ℤ).getPartials env).2) :=
  ⟨demoEnv, demoSettings, demo_valid, ⟨_, rfl, by decide +kernel⟩, ⟨_, rfl, by decide +kernel⟩⟩

/-- C33, violated: `get_power_spectrum_full(projection_on_coordinate)` ignores its argument once there is a cached
spectrum. -/
theorem C33_coordinate_violated : ∃ (env : QEnv ℚ (List ℚ) ℤ) (s : QSettings ℚ ℤ), s.freq.Valid ∧
    let o := ((Quasi.fresh s : Quasi ℚ (List ℚ) ℤ).getFull env 0).1
    (o.getFull env 1).2 ≠ ((Quasi.fresh o.s : Quasi ℚ (List ℚ) ℤ).getFull env 1).2 :=
  ⟨demoEnv, demoSettings, demo_valid, by decide +kernel⟩

/-! ## C34: getters keep the settings -/

section c34
variable (env : QEnv K V Q) (o : Quasi K V Q)

theorem getVc_s : (o.getVc env).1.s = o.s := by unfold Quasi.getVc; split <;> rfl
theorem getEig_s : (o.getEig env).1.s = o.s := by unfold Quasi.getEig; split <;> rfl
theorem getFrq_s : (o.getFrq env).1.s = o.s := by unfold Quasi.getFrq; split <;> rfl
theorem getVq_s : (o.getVq env).1.s = o.s := by
  unfold Quasi.getVq; split
  · rfl
  · simp only [getEig_s, getVc_s]

theorem phonon_fold_s (l : List Q) : ∀ r : Quasi K V Q × List V,
    ∃ q, (l.foldl (Quasi.phononStep env) r).1.s = { r.1.s with q := q } := by
  induction l with
  | nil => intro r; exact ⟨r.1.s.q, rfl⟩
  | cons q l ih =>
    intro r
    obtain ⟨q', h⟩ := ih (Quasi.phononStep env r q)
    refine ⟨q', ?_⟩
    rw [List.foldl_cons, h]
    unfold Quasi.phononStep
    simp only [getVq_s, Quasi.setQ_s]

theorem wave_fold_s (l : List Q) : ∀ r : Quasi K V Q × List V,
    ∃ q, (l.foldl (Quasi.waveStep env) r).1.s = { r.1.s with q := q } := by
  induction l with
  | nil => intro r; exact ⟨r.1.s.q, rfl⟩
  | cons q l ih =>
    intro r
    obtain ⟨q', h⟩ := ih (Quasi.waveStep env r q)
    refine ⟨q', ?_⟩
    rw [List.foldl_cons, h]
    unfold Quasi.waveStep
    simp only [getVc_s, Quasi.setQ_s]

theorem getPhonon_s : (o.getPhonon env).1.s = o.s := by
  unfold Quasi.getPhonon; split
  · rfl
  · split
    · obtain ⟨q, h⟩ := phonon_fold_s env (env.equiv o.s.q) (o, [])
      simp only [Quasi.setQ_s, h]
    · simp only [getVq_s]

theorem getWave_s : (o.getWave env).1.s = o.s := by
  unfold Quasi.getWave; split
  · rfl
  · dsimp only
    split
    · obtain ⟨q, h⟩ := wave_fold_s env (env.equiv (o.getVc env).1.s.q) ((o.getVc env).1, [])
      rw [Quasi.setQ_s, h, getVc_s]
    · simp only [getVc_s]

/-- C34: no getter of eigenvectors, frequencies, projections or spectra changes any setting, in whatever state the object
is (in particular the q-point is put back after the loop over equivalent q-points). -/
theorem C34_getters (c : ℤ) : (o.getEig env).1.s = o.s ∧ (o.getFrq env).1.s = o.s ∧ (o.getVc env).1.s = o.s ∧
    (o.getVq env).1.s = o.s ∧ (o.getPhonon env).1.s = o.s ∧ (o.getWave env).1.s = o.s ∧ (o.getFull env c).1.s = o.s ∧
    (o.getPartials env).1.s = o.s := by
  refine ⟨getEig_s _ _, getFrq_s _ _, getVc_s _ _, getVq_s _ _, getPhonon_s _ _, getWave_s _ _, ?_, ?_⟩
  · unfold Quasi.getFull; split <;> rfl
  · unfold Quasi.getPartials; split <;> rfl

theorem com_fold_s (l : List Q) : ∀ r : Quasi K V Q × List (ComEntry K V Q),
    ∃ q, (l.foldl (Quasi.comStep env) r).1.s = { r.1.s with q := q } := by
  induction l with
  | nil => intro r; exact ⟨r.1.s.q, rfl⟩
  | cons q l ih =>
    intro r
    obtain ⟨q', h⟩ := ih (Quasi.comStep env r q)
    refine ⟨q', ?_⟩
    rw [List.foldl_cons, h]
    unfold Quasi.comStep
    dsimp only
    split
    · simp only [getEig_s, Quasi.setQ_s]
    · simp only [getEig_s, getFrq_s, getPhonon_s, Quasi.setQ_s]

/-- C34: `get_commensurate_points_data` puts the q-point back and keeps all settings except the frequency range, which it
replaces by the automatic one (0 to 1.2 times the highest harmonic frequency, current resolution). -/
theorem C34_commensurate : ∃ f, (o.getCom env).1.s = { o.s with freq := f } ∧ f.resolution = o.s.freq.resolution := by
  unfold Quasi.getCom; split
  · exact ⟨o.s.freq, rfl, rfl⟩
  · obtain ⟨q, h⟩ := com_fold_s env env.points (o.setLimits 0 env.dosLimit, [])
    refine ⟨(o.setLimits 0 env.dosLimit).s.freq, ?_, ?_⟩
    · simp only [Quasi.setQ_s, h]
      unfold Quasi.setLimits Quasi.withFreq Quasi.powerSpectraClear Quasi.forceConstantsClear; split <;> rfl
    · unfold Quasi.setLimits Quasi.withFreq FreqSettings.setLimits FreqSettings.setRange
      split <;> split <;> rfl

end c34

/-- C34, violated for `get_commensurate_points_data` (and so for the renormalized force constants): the frequency range
the user has set is replaced, so the power spectra computed afterwards are on another grid. -/
theorem C34_range_violated : ∃ (env : QEnv ℚ (List ℚ) ℤ) (s : QSettings ℚ ℤ), s.freq.Valid ∧
    (((Quasi.fresh s : Quasi ℚ (List ℚ) ℤ).getCom env).1.s.freq.range ≠ s.freq.range) ∧
    ((((Quasi.fresh s : Quasi ℚ (List ℚ) ℤ).getCom env).1.getFull env (-1)).2 ≠
      ((Quasi.fresh s : Quasi ℚ (List ℚ) ℤ).getFull env (-1)).2) :=
  ⟨demoEnv, demoSettings, demo_valid, by decide +kernel⟩

/-! ## C36 -/

theorem vectorInList_spec (test : List Q) (full : List Q) (h : vectorInList test full ≠ 0) :
    ∃ t ∈ test, full[vectorInList test full]? = some t := by
  induction test with
  | nil => exact absurd rfl h
  | cons t ts ih =>
    unfold vectorInList at h ⊢
    by_cases ht : t ∈ full
    · rw [if_pos ht]
      exact ⟨t, by simp, by rw [List.getElem?_idxOf ht]⟩
    · rw [if_neg ht] at h ⊢
      obtain ⟨t', h1, h2⟩ := ih h
      exact ⟨t', by simp [h1], h2⟩

/-- Specification: entry number `i` of `c` is right for the points `pts`: its q-point and eigenvectors are those of point
`i`; the frequencies, linewidths and shifts are those fitted at this point, or (only with symmetry) those of an earlier entry
whose point is equivalent to this one. -/
def EntryOk (env : QEnv K V Q) (s : QSettings K Q) (pts : List Q) (c : List (ComEntry K V Q)) (i : ℕ) : Prop :=
  ∃ q e, pts[i]? = some q ∧ c[i]? = some e ∧ e.q = q ∧ e.eig = env.eig q ∧
    ((e.freqs = (fitEntry env s q).freqs ∧ e.widths = (fitEntry env s q).widths ∧ e.shifts = (fitEntry env s q).shifts) ∨
     s.sym = true ∧ ∃ j p e', j < i ∧ pts[j]? = some p ∧ p ∈ env.equiv q ∧ c[j]? = some e' ∧
       e.freqs = e'.freqs ∧ e.widths = e'.widths ∧ e.shifts = e'.shifts)

theorem getElem?_append_some {α : Type*} {l : List α} {i : ℕ} {a : α} (l' : List α) (h : l[i]? = some a) :
    (l ++ l')[i]? = some a := by
  rw [List.getElem?_append_left]
  · exact h
  · exact (List.getElem?_eq_some_iff.1 h).1

theorem EntryOk.append {env : QEnv K V Q} {s : QSettings K Q} {pts : List Q} {c : List (ComEntry K V Q)} {i : ℕ}
    (h : EntryOk env s pts c i) (x : List Q) (y : List (ComEntry K V Q)) : EntryOk env s (pts ++ x) (c ++ y) i := by
  obtain ⟨q, e, h1, h2, h3, h4, h5⟩ := h
  refine ⟨q, e, getElem?_append_some _ h1, getElem?_append_some _ h2, h3, h4, ?_⟩
  rcases h5 with h5 | ⟨hs, j, p, e', h6, h7, h8, h9, h10⟩
  · exact Or.inl h5
  · exact Or.inr ⟨hs, j, p, e', h6, getElem?_append_some _ h7, h8, getElem?_append_some _ h9, h10⟩

theorem comNext_ok (env : QEnv K V Q) (s : QSettings K Q) (l : List Q) : ∀ (pts : List Q) (c : List (ComEntry K V Q)),
    c.map (·.q) = pts → (∀ i < pts.length, EntryOk env s pts c i) →
    (l.foldl (comNext env s) c).map (·.q) = pts ++ l ∧
    ∀ i < (pts ++ l).length, EntryOk env s (pts ++ l) (l.foldl (comNext env s) c) i := by
  induction l with
  | nil => intro pts c h1 h2; simpa using ⟨h1, h2⟩
  | cons q l ih =>
    intro pts c h1 h2
    have hlen : c.length = pts.length := by rw [← h1, List.length_map]
    have key : (comNext env s c q).map (·.q) = pts ++ [q] ∧
        ∀ i < (pts ++ [q]).length, EntryOk env s (pts ++ [q]) (comNext env s c q) i := by
      constructor
      · unfold comNext fitEntry
        rw [List.map_append]
        split
        · rw [List.map_singleton]; dsimp only; rw [h1]
        · rw [List.map_singleton]; dsimp only; rw [h1]
      · intro i hi
        rw [List.length_append, List.length_singleton] at hi
        by_cases hip : i < pts.length
        · exact (h2 i hip).append _ _
        · obtain rfl : i = pts.length := by omega
          unfold comNext
          dsimp only
          have hlast : ∀ x : ComEntry K V Q, (c ++ [x])[pts.length]? = some x := by
            intro x; rw [← hlen]; simp
          by_cases hc : vectorInList (env.equiv q) (c.map (·.q)) ≠ 0 ∧ s.sym = true ∧
              vectorInList (env.equiv q) (c.map (·.q)) < c.length
          · rw [dif_pos hc]
            refine ⟨q, _, by simp, hlast _, rfl, rfl, Or.inr ⟨hc.2.1, vectorInList (env.equiv q) (c.map (·.q)),
              (c[vectorInList (env.equiv q) (c.map (·.q))]'hc.2.2).q, c[vectorInList (env.equiv q) (c.map (·.q))]'hc.2.2,
              ?_, ?_, ?_, ?_, rfl, rfl, rfl⟩⟩
            · rw [← hlen]; exact hc.2.2
            · rw [← h1, List.getElem?_append_left (by rw [List.length_map]; exact hc.2.2), List.getElem?_map,
                List.getElem?_eq_getElem hc.2.2]; rfl
            · obtain ⟨t, ht, he⟩ := vectorInList_spec _ _ hc.1
              rw [List.getElem?_map, List.getElem?_eq_getElem hc.2.2] at he
              simp only [Option.map_some, Option.some.injEq] at he
              rw [he]; exact ht
            · rw [List.getElem?_append_left hc.2.2, List.getElem?_eq_getElem hc.2.2]
          · rw [dif_neg hc]
            exact ⟨q, _, by simp, hlast _, rfl, rfl, Or.inl ⟨rfl, rfl, rfl⟩⟩
    have := ih _ _ key.1 key.2
    rw [List.foldl_cons]
    simpa using this

/-- C36: in any reachable state, `get_commensurate_points_data` returns one entry per commensurate point, in order, and
each is the fit at that point or a copy of the entry of an earlier equivalent point. -/
theorem C36_entries (env : QEnv K V Q) (hd : 0 < env.dosLimit) (s₀ : QSettings K Q) (h₀ : s₀.freq.Valid)
    (l : List (QOp K Q)) (hl : ∀ p ∈ l, p.Ok) (o : Quasi K V Q) (ho : l.foldlM (Quasi.op env) (Quasi.fresh s₀) = some o) :
    (o.getCom env).2.map (·.q) = env.points ∧
    ∀ i < env.points.length, EntryOk env (autoRange env o.s) env.points (o.getCom env).2 i := by
  have h := QInv.run hd l (QInv.fresh env s₀ h₀) hl ho
  rw [(h.getCom hd).2.2.1]
  have := comNext_ok env (autoRange env o.s) env.points [] [] rfl (by simp)
  simpa [specCom] using this

theorem zeroAcoustic_get (x : List K) (hx : 3 ≤ x.length) (k : ℕ) (hk : k < 3) : (zeroAcoustic x)[k]? = some 0 := by
  unfold zeroAcoustic
  obtain rfl | rfl | rfl : k = 0 ∨ k = 1 ∨ k = 2 := by omega
  · simp [List.getElem?_set]; intro h; subst h; simp at hx
  · simp [List.getElem?_set]; omega
  · simp [List.getElem?_set]; omega

/-- C36: at the Gamma point the three acoustic frequencies and linewidths are 0, if Gamma is equivalent only to itself and
the fit returns at least three modes. -/
theorem C36_gamma (env : QEnv K V Q) (hd : 0 < env.dosLimit) (s₀ : QSettings K Q) (h₀ : s₀.freq.Valid)
    (l : List (QOp K Q)) (hl : ∀ p ∈ l, p.Ok) (o : Quasi K V Q) (ho : l.foldlM (Quasi.op env) (Quasi.fresh s₀) = some o)
    (hg : ∀ g, env.gamma g = true → ∀ q ∈ env.equiv g, env.gamma q = true)
    (hfit : ∀ v r h q f d, 3 ≤ (env.fit v r h q f d).1.length ∧ 3 ≤ (env.fit v r h q f d).2.length)
    (i : ℕ) (e : ComEntry K V Q) (he : (o.getCom env).2[i]? = some e) (hge : env.gamma e.q = true) (k : ℕ) (hk : k < 3) :
    e.freqs[k]? = some 0 ∧ e.widths[k]? = some 0 := by
  obtain ⟨hq, hent⟩ := C36_entries env hd s₀ h₀ l hl o ho
  induction i using Nat.strong_induction_on generalizing e with
  | _ i ih =>
    have hi : i < env.points.length := by
      rw [← hq, List.length_map]; exact (List.getElem?_eq_some_iff.1 he).1
    obtain ⟨q, e', h1, h2, h3, h4, h5⟩ := hent i hi
    rw [he] at h2
    simp only [Option.some.injEq] at h2
    subst h2
    rw [h3] at hge
    rcases h5 with ⟨f1, f2, -⟩ | ⟨-, j, p, e', h6, h7, h8, h9, f1, f2, -⟩
    · rw [f1, f2]
      unfold fitEntry
      simp only [hge, if_true]
      exact ⟨zeroAcoustic_get _ (hfit _ _ _ _ _ _).1 k hk, zeroAcoustic_get _ (hfit _ _ _ _ _ _).2 k hk⟩
    · rw [f1, f2]
      refine ih j h6 e' h9 ?_
      have : (o.getCom env).2[j]?.map (·.q) = some p := by rw [← List.getElem?_map, hq]; exact h7
      rw [h9] at this
      simp only [Option.map_some, Option.some.injEq] at this
      rw [this]
      exact hg q hge p h8

/-- In the example, point number 3 is a copy of point number 1 and Gamma has zeros. -/
example : (((Quasi.fresh demoSettings : Quasi ℚ (List ℚ) ℤ).getCom demoEnv).2.map fun e => (e.q, e.freqs)) =
    [(0, [0, 0, 0]), (1, [2, 3, 4]), (2, [4, 5, 6]), (-1, [2, 3, 4])] := by decide +kernel

end Verif
