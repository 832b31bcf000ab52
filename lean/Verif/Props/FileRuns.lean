import Verif.Model.FileRuns
import Verif.Props.Commands
import Mathlib.Data.List.Nodup

/-! # C120: interrupted, repeated and simultaneous runs of the command line program -/

set_option autoImplicit false
set_option linter.unusedSectionVars false

namespace Verif

/-! ## Specification -/

/-- Some steps of a process that starts with a disk. The last state is where it has ended, has been killed, or is now. -/
def FRun {C : Type} (p : FileProg C) (d : Disk C) (s : FState C) : Prop := Relation.ReflTransGen FStep ⟨p, false, d⟩ s

/-- The disk after some files have been written completely, in this order. -/
def putAll {C : Type} (d : Disk C) (ws : List (String × C)) : Disk C := ws.foldl (fun d w => d.put w.1 w.2) d

/-- The files named by the options for results. -/
def CliFiles.outputs {K Q : Type} (f : CliFiles) (a : CliOptions K Q) : List String :=
  match f.source with
  | .create n => [n]
  | _ =>
    (if a.saveVcHdf5 then [f.vcHdf5] else []) ++ (if a.saveVq then [f.vq] else []) ++ (if a.saveVc.isSome then [f.vc] else []) ++
    f.data.toList ++
    (if a.saveForceConstants then [f.forceConstants] else []) ++ (if a.saveBands then [f.bands] else []) ++
    (if a.saveFull then [f.full] else []) ++ (if a.saveWave then [f.wave] else []) ++ (if a.savePhonon then [f.phonon] else []) ++
    f.displacements.toList ++
    (if a.saveQuasiparticles then ["quasiparticles_data.yaml"] else []) ++ (if a.saveMesh then ["mesh_data.yaml"] else []) ++
    (if a.partials then [f.partials] else []) ++
    (if f.frequencies then ["renormalized_frequencies"] else [])

/-- The files that a command reads: the input file and those it names, the trajectory, and so on. -/
def CliFiles.inputs {K V Q C : Type} (f : CliFiles) (a : CliOptions K Q) (L : CliLoader K V Q C) (d : Disk C) : List String :=
  f.input :: match d f.input with
    | none => []
    | some c => f.names a.nac L c

/-! ## General facts about processes -/

section general
variable {C : Type}

/-- The files written by a process that is not interrupted. -/
def FileProg.writesOf : FileProg C → Disk C → List (String × C)
  | .done, _ => []
  | .read n k, d => (k (d n)).writesOf d
  | .write n c k, d => (n, c) :: k.writesOf (d.put n c)

/-- The files read by a process that is not interrupted. -/
def FileProg.readsOf : FileProg C → Disk C → List String
  | .done, _ => []
  | .read n k, d => n :: (k (d n)).readsOf d
  | .write n c k, d => k.readsOf (d.put n c)

theorem put_ne (d : Disk C) (n m : String) (c : C) (h : m ≠ n) : d.put n c m = d m := by
  unfold Disk.put; rw [if_neg h]

theorem put_put_eq (d e : Disk C) (n : String) (c : C) (h : ∀ m, m ≠ n → d m = e m) : d.put n c = e.put n c := by
  funext m
  unfold Disk.put
  by_cases hm : m = n
  · rw [if_pos hm, if_pos hm]
  · rw [if_neg hm, if_neg hm, h m hm]

theorem putAll_append (d : Disk C) (a b : List (String × C)) : putAll d (a ++ b) = putAll (putAll d a) b := by
  unfold putAll; rw [List.foldl_append]

theorem putAll_not_mem (d : Disk C) (ws : List (String × C)) (n : String) (h : n ∉ ws.map Prod.fst) : putAll d ws n = d n := by
  induction ws generalizing d with
  | nil => rfl
  | cons w ws ih =>
    simp only [List.map_cons, List.mem_cons, not_or] at h
    have : putAll d (w :: ws) = putAll (d.put w.1 w.2) ws := rfl
    rw [this, ih _ h.2, put_ne _ _ _ _ h.1]

theorem putAll_mem (d e : Disk C) (ws : List (String × C)) (n : String) (h : n ∈ ws.map Prod.fst) : putAll d ws n = putAll e ws n := by
  induction ws generalizing d e with
  | nil => simp at h
  | cons w ws ih =>
    have hx : ∀ d : Disk C, putAll d (w :: ws) = putAll (d.put w.1 w.2) ws := fun _ => rfl
    rw [hx, hx]
    by_cases hm : n ∈ ws.map Prod.fst
    · exact ih _ _ hm
    · rw [putAll_not_mem _ _ _ hm, putAll_not_mem _ _ _ hm]
      simp only [List.map_cons, List.mem_cons] at h
      have : n = w.1 := by tauto
      unfold Disk.put; rw [if_pos this, if_pos this]

theorem putAll_value (d : Disk C) (ws : List (String × C)) (n : String) (c : C) (h : (n, c) ∈ ws)
    (hu : ∀ c', (n, c') ∈ ws → c' = c) : putAll d ws n = some c := by
  induction ws generalizing d with
  | nil => simp at h
  | cons w ws ih =>
    have hx : putAll d (w :: ws) = putAll (d.put w.1 w.2) ws := rfl
    rw [hx]
    by_cases hm : n ∈ ws.map Prod.fst
    · obtain ⟨⟨n', c'⟩, hm1, hm2⟩ := List.mem_map.1 hm
      obtain rfl : n' = n := hm2
      have : c' = c := hu c' (List.mem_cons_of_mem _ hm1)
      subst this
      exact ih _ hm1 (fun c'' h'' => hu c'' (List.mem_cons_of_mem _ h''))
    · rw [putAll_not_mem _ _ _ hm]
      rcases List.mem_cons.1 h with e | e
      · rw [← e]; simp [Disk.put]
      · exact absurd (List.mem_map.2 ⟨_, e, rfl⟩) hm

/-- What is known at every moment of a run. -/
def FInv (p : FileProg C) (d : Disk C) (s : FState C) : Prop :=
  ∃ k, k ≤ (p.writesOf d).length ∧
    ((s.busy = false ∧ s.disk = putAll d ((p.writesOf d).take k) ∧ s.prog.writesOf s.disk = (p.writesOf d).drop k ∧
      ∀ m ∈ s.prog.readsOf s.disk, m ∈ p.readsOf d) ∨
    ∃ n c q, s.busy = true ∧ s.prog = .write n c q ∧ (∀ m, m ≠ n → s.disk m = putAll d ((p.writesOf d).take k) m) ∧
      (p.writesOf d).drop k = (n, c) :: q.writesOf ((putAll d ((p.writesOf d).take k)).put n c) ∧
      ∀ m ∈ q.readsOf ((putAll d ((p.writesOf d).take k)).put n c), m ∈ p.readsOf d)

theorem FInv_start (p : FileProg C) (d : Disk C) : FInv p d ⟨p, false, d⟩ :=
  ⟨0, Nat.zero_le _, Or.inl ⟨rfl, by simp [putAll], by simp, fun _ h => h⟩⟩

theorem FInv_step (p : FileProg C) (d : Disk C) (s s' : FState C) (h : FInv p d s) (hs : FStep s s') : FInv p d s' := by
  obtain ⟨k, hk, h⟩ := h
  cases hs with
  | read n q e =>
    rcases h with ⟨_, h2, h3, h4⟩ | ⟨_, _, _, h1, _⟩
    · refine ⟨k, hk, Or.inl ⟨rfl, h2, h3, fun m hm => h4 m ?_⟩⟩
      show m ∈ n :: _
      exact List.mem_cons_of_mem _ hm
    · exact absurd h1 (by simp)
  | opens n c q e g =>
    rcases h with ⟨_, h2, h3, h4⟩ | ⟨_, _, _, h1, _⟩
    · have h2' : e = _ := h2
      refine ⟨k, hk, Or.inr ⟨n, c, q, rfl, rfl, fun m hm => ?_, ?_, ?_⟩⟩
      · show e.put n g m = _
        rw [put_ne _ _ _ _ hm, h2']
      · rw [← h3, ← h2']; rfl
      · rw [← h2']; exact h4
    · exact absurd h1 (by simp)
  | more n c q e g =>
    rcases h with ⟨h1, _⟩ | ⟨n', c', q', _, h2, h3, h4, h5⟩
    · exact absurd h1 (by simp)
    · obtain ⟨rfl, rfl, rfl⟩ : n = n' ∧ c = c' ∧ q = q' := by
        have h2' : FileProg.write n c q = FileProg.write n' c' q' := h2
        injection h2' with a b c
        exact ⟨a, b, c⟩
      refine ⟨k, hk, Or.inr ⟨n, c, q, rfl, rfl, fun m hm => ?_, h4, h5⟩⟩
      show e.put n g m = _
      rw [put_ne _ _ _ _ hm]; exact h3 m hm
  | closes n c q e =>
    rcases h with ⟨h1, _⟩ | ⟨n', c', q', _, h2, h3, h4, h5⟩
    · exact absurd h1 (by simp)
    · obtain ⟨rfl, rfl, rfl⟩ : n = n' ∧ c = c' ∧ q = q' := by
        have h2' : FileProg.write n c q = FileProg.write n' c' q' := h2
        injection h2' with a b c
        exact ⟨a, b, c⟩
      have hlt : k < (p.writesOf d).length := by
        by_contra hc
        rw [List.drop_eq_nil_of_le (by omega)] at h4
        exact absurd h4 (by simp)
      have hget : (p.writesOf d)[k] = (n, c) := by
        have := List.drop_eq_getElem_cons hlt
        rw [h4] at this
        exact (List.cons.inj this).1.symm
      have htake : (p.writesOf d).take (k + 1) = (p.writesOf d).take k ++ [(n, c)] := by
        rw [List.take_succ_eq_append_getElem hlt, hget]
      have hdisk : e.put n c = putAll d ((p.writesOf d).take (k + 1)) := by
        rw [htake, putAll_append]
        exact put_put_eq e _ n c h3
      have hdrop : (p.writesOf d).drop (k + 1) = q.writesOf ((putAll d ((p.writesOf d).take k)).put n c) := by
        have := List.drop_eq_getElem_cons hlt
        rw [h4] at this
        exact (List.cons.inj this).2.symm
      have he : e.put n c = (putAll d ((p.writesOf d).take k)).put n c := put_put_eq e _ n c h3
      refine ⟨k + 1, hlt, Or.inl ⟨rfl, hdisk, ?_, ?_⟩⟩
      · show q.writesOf (e.put n c) = _
        rw [hdrop, he]
      · show ∀ m ∈ q.readsOf (e.put n c), _
        rw [he]; exact h5

theorem FInv_run (p : FileProg C) (d : Disk C) (s : FState C) (h : FRun p d s) : FInv p d s := by
  unfold FRun at h
  induction h with
  | refl => exact FInv_start p d
  | tail _ hs ih => exact FInv_step p d _ _ ih hs

theorem FInv_done (p : FileProg C) (d : Disk C) (s : FState C) (h : FInv p d s) (hd : s.prog = .done) :
    s.disk = putAll d (p.writesOf d) := by
  obtain ⟨k, hk, ⟨_, h2, h3, _⟩ | ⟨n, c, q, _, h2, _⟩⟩ := h
  · rw [hd] at h3
    have : (p.writesOf d).length ≤ k := List.drop_eq_nil_iff.1 h3.symm
    rw [List.take_of_length_le this] at h2
    exact h2
  · rw [hd] at h2; exact absurd h2 (by simp)

theorem FInv_names (p : FileProg C) (d : Disk C) (s : FState C) (h : FInv p d s) (n : String)
    (hn : n ∉ (p.writesOf d).map Prod.fst) : s.disk n = d n := by
  obtain ⟨k, hk, ⟨_, h2, _⟩ | ⟨n', c, q, _, _, h3, h4, _⟩⟩ := h
  · rw [h2]
    exact putAll_not_mem _ _ _ (fun hx => hn (by rw [List.map_take] at hx; exact List.mem_of_mem_take hx))
  · have hne : n ≠ n' := by
      rintro rfl
      apply hn
      have : (n, c) ∈ (p.writesOf d).drop k := by rw [h4]; exact List.mem_cons_self
      exact List.mem_map.2 ⟨_, List.mem_of_mem_drop this, rfl⟩
    rw [h3 n hne]
    exact putAll_not_mem _ _ _ (fun hx => hn (by rw [List.map_take] at hx; exact List.mem_of_mem_take hx))

/-- Every process can be continued to its end. -/
theorem FRun_ends (p : FileProg C) (d : Disk C) : ∃ s, FRun p d s ∧ s.prog = .done := by
  unfold FRun
  induction p generalizing d with
  | done => exact ⟨_, Relation.ReflTransGen.refl, rfl⟩
  | read n k ih =>
    obtain ⟨s, h1, h2⟩ := ih (d n) d
    exact ⟨s, Relation.ReflTransGen.head (FStep.read n k d) h1, h2⟩
  | write n c k ih =>
    obtain ⟨s, h1, h2⟩ := ih ((d.put n c).put n c)
    exact ⟨s, Relation.ReflTransGen.head (FStep.opens n c k d c) (Relation.ReflTransGen.head (FStep.closes n c k _) h1), h2⟩

theorem FRun_continue (p : FileProg C) (d : Disk C) (s : FState C) (h : FRun p d s) : ∃ s', Relation.ReflTransGen FStep s s' ∧ s'.prog = .done := by
  obtain ⟨k, _, ⟨h1, _⟩ | ⟨n, c, q, h1, h2, _⟩⟩ := FInv_run p d s h
  · obtain ⟨s', h3, h4⟩ := FRun_ends s.prog s.disk
    obtain ⟨sp, sb, sd⟩ := s
    cases h1
    exact ⟨s', h3, h4⟩
  · obtain ⟨s', h3, h4⟩ := FRun_ends q (s.disk.put n c)
    obtain ⟨sp, sb, sd⟩ := s
    cases h1; cases h2
    exact ⟨s', Relation.ReflTransGen.head (FStep.closes n c q sd) h3, h4⟩

/-! ### Several processes -/

/-- What is known of several processes: each of them is where it would be if it were alone on the disk, as far as names are concerned
that no other one writes. -/
def MInv {ι : Type} (p : ι → FileProg C) (d : Disk C) (W : ι → String → Prop) (x : (ι → FileProg C × Bool) × Disk C) : Prop :=
  ∀ i, ∃ e, FRun (p i) d ⟨(x.1 i).1, (x.1 i).2, e⟩ ∧ ∀ n, (∀ j, j ≠ i → ¬ W j n) → x.2 n = e n

theorem MInv_run {ι : Type} [DecidableEq ι] (p : ι → FileProg C) (d : Disk C) (W : ι → String → Prop)
    (hW : ∀ i, ∀ w ∈ (p i).writesOf d, W i w.1) (hR : ∀ i j, i ≠ j → ∀ n ∈ (p i).readsOf d, ¬ W j n)
    (x : (ι → FileProg C × Bool) × Disk C) (h : Relation.ReflTransGen MStep (fun i => (p i, false), d) x) : MInv p d W x := by
  induction h with
  | refl => exact fun i => ⟨d, Relation.ReflTransGen.refl, fun _ _ => rfl⟩
  | @tail y z _ hs ih =>
    obtain ⟨ps, e, i, s', hs⟩ := hs
    -- the process that moves
    obtain ⟨ei, hri, hei⟩ := ih i
    have hinv := FInv_run _ _ _ hri
    -- the step alone, and the names touched
    have key : ∃ e', FStep ⟨(ps i).1, (ps i).2, ei⟩ ⟨s'.prog, s'.busy, e'⟩ ∧ (∀ n, (∀ j, j ≠ i → ¬ W j n) → s'.disk n = e' n) ∧
        ∀ n, ¬ W i n → s'.disk n = e n := by
      have hei' : ∀ n, (∀ j, j ≠ i → ¬ W j n) → e n = ei n := hei
      generalize hp : (ps i).1 = P at hs hinv hri ⊢
      generalize hb : (ps i).2 = B at hs hinv hri ⊢
      have hw : ∀ n c q, P = .write n c q → W i n := by
        intro n c q hP
        obtain ⟨k, hk, ⟨_, _, h3, _⟩ | ⟨n', c', q', _, h2, _, h4, _⟩⟩ := hinv
        · have h3' : P.writesOf ei = _ := h3
          rw [hP] at h3'
          have : (n, c) ∈ (p i).writesOf d := by
            apply List.mem_of_mem_drop (i := k)
            rw [← h3']; exact List.mem_cons_self
          exact hW i _ this
        · have h2' : P = .write n' c' q' := h2
          rw [hP] at h2'
          injection h2' with e1 e2 e3
          subst e1
          have : (n, c') ∈ (p i).writesOf d := by
            apply List.mem_of_mem_drop (i := k)
            rw [h4]; exact List.mem_cons_self
          exact hW i _ this
      cases hs with
      | read n k =>
        have hr : n ∈ (p i).readsOf d := by
          obtain ⟨k', hk, ⟨_, _, _, h4⟩ | ⟨n', c', q', h1, _⟩⟩ := hinv
          · exact h4 n List.mem_cons_self
          · exact absurd h1 (by simp)
        have hn : e n = ei n := hei' n (fun j hj => hR i j (Ne.symm hj) n hr)
        refine ⟨ei, ?_, hei', fun _ _ => rfl⟩
        show FStep _ ⟨k (e n), false, ei⟩
        rw [hn]
        exact FStep.read n k ei
      | opens n c k _ g =>
        refine ⟨ei.put n g, FStep.opens n c k ei g, fun m hm => ?_, fun m hm => ?_⟩
        · show e.put n g m = ei.put n g m
          unfold Disk.put
          by_cases h : m = n
          · rw [if_pos h, if_pos h]
          · rw [if_neg h, if_neg h]; exact hei' m hm
        · exact put_ne _ _ _ _ (fun h => hm (h ▸ hw n c k rfl))
      | more n c k _ g =>
        refine ⟨ei.put n g, FStep.more n c k ei g, fun m hm => ?_, fun m hm => ?_⟩
        · show e.put n g m = ei.put n g m
          unfold Disk.put
          by_cases h : m = n
          · rw [if_pos h, if_pos h]
          · rw [if_neg h, if_neg h]; exact hei' m hm
        · exact put_ne _ _ _ _ (fun h => hm (h ▸ hw n c k rfl))
      | closes n c k =>
        refine ⟨ei.put n c, FStep.closes n c k ei, fun m hm => ?_, fun m hm => ?_⟩
        · show e.put n c m = ei.put n c m
          unfold Disk.put
          by_cases h : m = n
          · rw [if_pos h, if_pos h]
          · rw [if_neg h, if_neg h]; exact hei' m hm
        · exact put_ne _ _ _ _ (fun h => hm (h ▸ hw n c _ rfl))
    obtain ⟨e', hst, h1, h2⟩ := key
    intro j
    by_cases hj : j = i
    · subst hj
      refine ⟨e', ?_, h1⟩
      show FRun (p j) d ⟨(Function.update ps j (s'.prog, s'.busy) j).1, (Function.update ps j (s'.prog, s'.busy) j).2, e'⟩
      rw [Function.update_self]
      exact Relation.ReflTransGen.tail hri hst
    · obtain ⟨ej, hrj, hej⟩ := ih j
      refine ⟨ej, ?_, fun n hn => ?_⟩
      · show FRun (p j) d ⟨(Function.update ps i (s'.prog, s'.busy) j).1, (Function.update ps i (s'.prog, s'.busy) j).2, ej⟩
        rw [Function.update_of_ne hj]
        exact hrj
      · show s'.disk n = ej n
        rw [h2 n (hn i (Ne.symm hj))]
        exact hej n hn

end general

/-! ## The command line program -/

section cli
variable {K V Q C : Type}

/-- The contents of some files, if all exist. -/
def readFiles (d : Disk C) : List String → Option (List C)
  | [] => some []
  | n :: ns => match d n with
    | none => none
    | some c => (readFiles d ns).map (c :: ·)

theorem readFiles_congr (d e : Disk C) (ns : List String) (h : ∀ n ∈ ns, d n = e n) : readFiles d ns = readFiles e ns := by
  induction ns with
  | nil => rfl
  | cons n ns ih =>
    unfold readFiles
    rw [h n List.mem_cons_self, ih (fun m hm => h m (List.mem_cons_of_mem _ hm))]

theorem writesOf_readAll (d : Disk C) (ns : List String) (k : List C → FileProg C) :
    (readAll ns k).writesOf d = match readFiles d ns with
      | none => []
      | some cs => (k cs).writesOf d := by
  induction ns generalizing k with
  | nil => rfl
  | cons n ns ih =>
    rw [readAll, FileProg.writesOf, readFiles]
    cases h : d n with
    | none => rfl
    | some c =>
      dsimp only
      rw [ih]
      cases readFiles d ns <;> rfl

theorem readsOf_readAll (d : Disk C) (ns : List String) (k : List C → FileProg C) (hk : ∀ cs, (k cs).readsOf d = []) :
    ∀ m ∈ (readAll ns k).readsOf d, m ∈ ns := by
  induction ns generalizing k with
  | nil => intro m hm; rw [readAll, hk] at hm; simp at hm
  | cons n ns ih =>
    intro m hm
    unfold readAll FileProg.readsOf at hm
    rcases List.mem_cons.1 hm with rfl | hm
    · exact List.mem_cons_self
    · cases h : d n with
      | none => rw [h] at hm; simp [FileProg.readsOf] at hm
      | some c =>
        rw [h] at hm
        exact List.mem_cons_of_mem _ (ih _ (fun cs => hk _) m hm)

theorem writesOf_writeAll (d : Disk C) (ws : List (String × C)) : (writeAll ws).writesOf d = ws := by
  induction ws generalizing d with
  | nil => rfl
  | cons w ws ih => unfold writeAll FileProg.writesOf; rw [ih]

theorem readsOf_writeAll (d : Disk C) (ws : List (String × C)) : (writeAll ws).readsOf d = [] := by
  induction ws generalizing d with
  | nil => rfl
  | cons w ws ih => unfold writeAll FileProg.readsOf; rw [ih]

variable [Field K] [LinearOrder K] [IsStrictOrderedRing K] [FloorRing K] [DecidableEq Q]

/-- What a command loads, if it gets so far. -/
def cliLoads (L : CliLoader K V Q C) (f : CliFiles) (a : CliOptions K Q) (d : Disk C) : Option (CliLoaded K V Q C) :=
  match d f.input with
  | none => none
  | some c => match readFiles d (f.names a.nac L c) with
    | none => none
    | some cs => L.load (c :: cs)

theorem writesOf_cli (L : CliLoader K V Q C) (f : CliFiles) (a : CliOptions K Q) (d : Disk C) :
    (cliProgram L f a).writesOf d = match cliLoads L f a d with
      | none => []
      | some x => cliWrites f a x := by
  unfold cliProgram cliLoads FileProg.writesOf
  cases d f.input with
  | none => rfl
  | some c =>
    dsimp only
    rw [writesOf_readAll]
    cases readFiles d (f.names a.nac L c) with
    | none => rfl
    | some cs =>
      dsimp only
      cases L.load (c :: cs) with
      | none => rfl
      | some x => exact writesOf_writeAll _ _

theorem readsOf_cli (L : CliLoader K V Q C) (f : CliFiles) (a : CliOptions K Q) (d : Disk C) :
    ∀ m ∈ (cliProgram L f a).readsOf d, m ∈ f.inputs a L d := by
  intro m hm
  unfold cliProgram FileProg.readsOf at hm
  unfold CliFiles.inputs
  rcases List.mem_cons.1 hm with rfl | hm
  · exact List.mem_cons_self
  · apply List.mem_cons_of_mem
    cases h : d f.input with
    | none => rw [h] at hm; simp [FileProg.readsOf] at hm
    | some c =>
      rw [h] at hm
      refine readsOf_readAll d _ _ (fun cs => ?_) m hm
      cases L.load (c :: cs) with
      | none => rfl
      | some x => exact readsOf_writeAll _ _

theorem cliLoads_congr (L : CliLoader K V Q C) (f : CliFiles) (a : CliOptions K Q) (d e : Disk C)
    (h : ∀ n ∈ f.inputs a L d, d n = e n) : cliLoads L f a d = cliLoads L f a e := by
  unfold cliLoads
  have h0 : d f.input = e f.input := h _ List.mem_cons_self
  rw [← h0]
  cases hc : d f.input with
  | none => rfl
  | some c =>
    dsimp only
    rw [readFiles_congr d e]
    intro n hn
    apply h
    unfold CliFiles.inputs
    rw [hc]
    exact List.mem_cons_of_mem _ hn

theorem inputs_congr (L : CliLoader K V Q C) (f : CliFiles) (a : CliOptions K Q) (d e : Disk C)
    (h : d f.input = e f.input) : f.inputs a L d = f.inputs a L e := by
  unfold CliFiles.inputs
  rw [h]

/-! ### Names and contents of the files -/

theorem lateTasks_split (a : CliOptions K Q) : a.lateTasks = a.lateTasks1 ++ a.lateTasks2 := by
  unfold CliOptions.lateTasks CliOptions.lateTasks1 CliOptions.lateTasks2
  simp only [List.append_assoc]

theorem taskWrites_append (f : CliFiles) (x : CliLoaded K V Q C) (ts us : List CliTask) (o : Quasi K V Q) :
    taskWrites f x o (ts ++ us) = taskWrites f x o ts ++ taskWrites f x (runTasks x.env o ts).1 us := by
  induction ts generalizing o with
  | nil => rfl
  | cons t ts ih =>
    rw [List.cons_append, taskWrites, taskWrites, ih]
    simp only [runTasks, List.append_assoc]

theorem taskWrites_sound (f : CliFiles) (x : CliLoaded K V Q C) (ts : List CliTask) (o : Quasi K V Q) (w : String × C)
    (h : w ∈ taskWrites f x o ts) :
    (∃ t r, (t, r) ∈ (runTasks x.env o ts).2 ∧ f.ofTask t = some w.1 ∧ w.2 = x.render t r) ∨
    f.frequencies = true ∧ w.1 = "renormalized_frequencies" := by
  induction ts generalizing o with
  | nil => simp [taskWrites] at h
  | cons t ts ih =>
    simp only [taskWrites, List.mem_append] at h
    rcases h with (h | h) | h
    · right
      split at h
      · split at h
        · rename_i hf
          rw [List.mem_singleton] at h
          exact ⟨hf, by rw [h]⟩
        · simp at h
      · simp at h
    · left
      split at h
      · rename_i n hn
        rw [List.mem_singleton] at h
        exact ⟨t, (runTask x.env o t).2, by simp [runTasks], by rw [h, hn], by rw [h]⟩
      · simp at h
    · rcases ih _ h with ⟨t', r, h1, h2⟩ | h'
      · exact Or.inl ⟨t', r, by simp only [runTasks, List.mem_cons]; exact Or.inr h1, h2⟩
      · exact Or.inr h'

theorem taskWrites_complete (f : CliFiles) (x : CliLoaded K V Q C) (ts : List CliTask) (o : Quasi K V Q) (t : CliTask) (r : CliResult K V Q)
    (h : (t, r) ∈ (runTasks x.env o ts).2) (n : String) (hn : f.ofTask t = some n) : (n, x.render t r) ∈ taskWrites f x o ts := by
  induction ts generalizing o with
  | nil => simp [runTasks] at h
  | cons u ts ih =>
    simp only [runTasks, List.mem_cons] at h
    simp only [taskWrites, List.mem_append]
    rcases h with h | h
    · left; right
      rw [Prod.mk.injEq] at h
      obtain ⟨rfl, rfl⟩ := h
      rw [hn]; exact List.mem_singleton.2 rfl
    · exact Or.inr (ih _ h)

/-- The object when the frequency limits have been set. -/
def cliLate (x : CliLoaded K V Q C) (a : CliOptions K Q) (o : Quasi K V Q) : Quasi K V Q :=
  match a.limits with
  | none => (runTasks x.env o a.earlyTasks).1
  | some (u, v) => (runTasks x.env o a.earlyTasks).1.setLimits u v

theorem cliWrites_mem (f : CliFiles) (a : CliOptions K Q) (x : CliLoaded K V Q C) (hf : ∀ n, f.source ≠ .create n) (o : Quasi K V Q)
    (ho : (cliSetup x.types a x.settings : Option (Quasi K V Q)) = some o) (w : String × C) :
    w ∈ cliWrites f a x ↔ w ∈ taskWrites f x o a.earlyTasks ∨ w ∈ taskWrites f x (cliLate x a o) a.lateTasks ∨
      (∃ n ∈ f.data, w = (n, x.dataText)) ∨ ∃ n ∈ f.displacements, w = (n, x.displacementText) := by
  unfold cliWrites
  split
  · rename_i n hn; exact absurd hn (hf n)
  · rw [ho]
    dsimp only
    rw [lateTasks_split, taskWrites_append]
    simp only [List.mem_append, List.mem_map, Option.mem_toList]
    constructor
    · rintro ((((h | ⟨n, h1, h2⟩) | h) | ⟨n, h1, h2⟩) | h)
      · exact Or.inl h
      · exact Or.inr (Or.inr (Or.inl ⟨n, h1, h2.symm⟩))
      · exact Or.inr (Or.inl (Or.inl h))
      · exact Or.inr (Or.inr (Or.inr ⟨n, h1, h2.symm⟩))
      · exact Or.inr (Or.inl (Or.inr h))
    · rintro (h | (h | h) | ⟨n, h1, h2⟩ | ⟨n, h1, h2⟩)
      · exact Or.inl (Or.inl (Or.inl (Or.inl h)))
      · exact Or.inl (Or.inl (Or.inr h))
      · exact Or.inr h
      · exact Or.inl (Or.inl (Or.inl (Or.inr ⟨n, h1, h2.symm⟩)))
      · exact Or.inl (Or.inr ⟨n, h1, h2.symm⟩)

theorem ofTask_early (f : CliFiles) (a : CliOptions K Q) (hf : ∀ n, f.source ≠ .create n) (t : CliTask)
    (h : t ∈ a.earlyTasks ∨ t ∈ a.lateTasks) (n : String) (hn : f.ofTask t = some n) : n ∈ f.outputs a := by
  unfold CliFiles.outputs
  split
  · rename_i n hn; exact absurd hn (hf n)
  · unfold CliOptions.earlyTasks CliOptions.lateTasks at h
    simp only [List.mem_append] at h ⊢
    rcases h with h | h
    · rcases h with (h | h) | h
      · split at h
        · rw [List.mem_singleton] at h; subst h
          simp only [CliFiles.ofTask, Option.some.injEq] at hn; subst hn
          simp [*]
        · simp at h
      · split at h
        · rw [List.mem_singleton] at h; subst h
          simp only [CliFiles.ofTask, Option.some.injEq] at hn; subst hn
          simp [*]
        · simp at h
      · split at h
        · rw [List.mem_singleton] at h; subst h
          simp only [CliFiles.ofTask, Option.some.injEq] at hn; subst hn
          simp [*]
        · simp at h
    · rcases h with (((((((((((((h | h) | h) | h) | h) | h) | h) | h) | h) | h) | h) | h) | h) | h) | h <;>
      · split at h
        · rw [List.mem_singleton] at h; subst h
          simp only [CliFiles.ofTask, Option.some.injEq, reduceCtorEq] at hn
          try subst hn
          try simp [*]
        · simp at h

theorem cliWrites_outputs (f : CliFiles) (a : CliOptions K Q) (x : CliLoaded K V Q C) (w : String × C) (h : w ∈ cliWrites f a x) :
    w.1 ∈ f.outputs a := by
  by_cases hf : ∃ n, f.source = .create n
  · obtain ⟨n, hn⟩ := hf
    unfold cliWrites at h
    rw [hn] at h
    simp only [List.mem_singleton] at h
    unfold CliFiles.outputs
    rw [hn, h]
    exact List.mem_singleton.2 rfl
  · have hf' : ∀ n, f.source ≠ .create n := fun n hn => hf ⟨n, hn⟩
    cases ho : (cliSetup x.types a x.settings : Option (Quasi K V Q)) with
    | none =>
      unfold cliWrites at h
      split at h
      · rename_i n hn; exact absurd hn (hf' n)
      · rw [ho] at h; simp at h
    | some o =>
      have hfr : f.frequencies = true → w.1 = "renormalized_frequencies" → w.1 ∈ f.outputs a := by
        intro h1 h2
        unfold CliFiles.outputs
        split
        · rename_i n hn; exact absurd hn (hf' n)
        · simp [h1, h2]
      rcases (cliWrites_mem f a x hf' o ho w).1 h with h | h | ⟨n, h1, h2⟩ | ⟨n, h1, h2⟩
      · rcases taskWrites_sound f x _ _ w h with ⟨t, r, h1, h2, _⟩ | ⟨h1, h2⟩
        · exact ofTask_early f a hf' t (Or.inl (by rw [← runTasks_fst x.env a.earlyTasks o]; exact List.mem_map.2 ⟨_, h1, rfl⟩)) _ h2
        · exact hfr h1 h2
      · rcases taskWrites_sound f x _ _ w h with ⟨t, r, h1, h2, _⟩ | ⟨h1, h2⟩
        · exact ofTask_early f a hf' t (Or.inr (by rw [← runTasks_fst x.env a.lateTasks (cliLate x a o)]; exact List.mem_map.2 ⟨_, h1, rfl⟩)) _ h2
        · exact hfr h1 h2
      · unfold CliFiles.outputs
        split
        · rename_i n hn; exact absurd hn (hf' n)
        · rw [Option.mem_def] at h1
          simp [h1, h2]
      · unfold CliFiles.outputs
        split
        · rename_i n hn; exact absurd hn (hf' n)
        · rw [Option.mem_def] at h1
          simp [h1, h2]

theorem writesOf_outputs (L : CliLoader K V Q C) (f : CliFiles) (a : CliOptions K Q) (d : Disk C) (w : String × C)
    (h : w ∈ (cliProgram L f a).writesOf d) : w.1 ∈ f.outputs a := by
  rw [writesOf_cli] at h
  cases hl : cliLoads L f a d with
  | none => rw [hl] at h; simp at h
  | some x => rw [hl] at h; exact cliWrites_outputs f a x w h

/-! ## C120 -/

/-- A command, killed at any moment or not, touches no file that the options do not name for a result. -/
theorem C120_other_files (L : CliLoader K V Q C) (f : CliFiles) (a : CliOptions K Q) (d : Disk C) (s : FState C)
    (h : FRun (cliProgram L f a) d s) (n : String) (hn : n ∉ f.outputs a) : s.disk n = d n :=
  FInv_names _ _ _ (FInv_run _ _ _ h) n fun hm => by
    obtain ⟨w, h1, rfl⟩ := List.mem_map.1 hm
    exact hn (writesOf_outputs L f a d w h1)

/-- A command can always come to its end, and then the files are written in a definite order, `w`. At any moment the first ones
are complete, at most one (the one that is being written) is not, and the others are those that were there before. -/
theorem C120_any_moment (L : CliLoader K V Q C) (f : CliFiles) (a : CliOptions K Q) (d : Disk C) :
    ∃ w : List (String × C), (∀ x ∈ w, x.1 ∈ f.outputs a) ∧
      (∃ s, FRun (cliProgram L f a) d s ∧ s.prog = .done) ∧
      (∀ s, FRun (cliProgram L f a) d s → s.prog = .done → s.disk = putAll d w) ∧
      ∀ s, FRun (cliProgram L f a) d s →
        (∃ s', Relation.ReflTransGen FStep s s' ∧ s'.prog = .done) ∧
        ∃ k, k ≤ w.length ∧ ((s.busy = false ∧ s.disk = putAll d (w.take k)) ∨
          ∃ x, w[k]? = some x ∧ s.busy = true ∧ ∀ n, n ≠ x.1 → s.disk n = putAll d (w.take k) n) := by
  refine ⟨(cliProgram L f a).writesOf d, writesOf_outputs L f a d, FRun_ends _ d, fun s h hd => FInv_done _ _ _ (FInv_run _ _ _ h) hd,
    fun s h => ⟨FRun_continue _ _ _ h, ?_⟩⟩
  obtain ⟨k, hk, ⟨h1, h2, _⟩ | ⟨n, c, q, h1, _, h3, h4, _⟩⟩ := FInv_run _ _ _ h
  · exact ⟨k, hk, Or.inl ⟨h1, h2⟩⟩
  · refine ⟨k, hk, Or.inr ⟨(n, c), ?_, h1, h3⟩⟩
    have := congrArg List.head? h4
    rwa [List.head?_drop] at this

/-- What may have happened to a directory: commands of a given kind, one after the other, each of them ended or killed at any moment. -/
inductive FHistory (L : CliLoader K V Q C) (kind : CliFiles → CliOptions K Q → Prop) (d0 : Disk C) : Disk C → Prop
  | start : FHistory L kind d0 d0
  | command (d : Disk C) (f : CliFiles) (a : CliOptions K Q) (s : FState C) : FHistory L kind d0 d → kind f a → FRun (cliProgram L f a) d s →
      FHistory L kind d0 s.disk

theorem FHistory_keeps (L : CliLoader K V Q C) (kind : CliFiles → CliOptions K Q → Prop) (d0 d : Disk C) (h : FHistory L kind d0 d)
    (n : String) (hn : ∀ f a, kind f a → n ∉ f.outputs a) : d n = d0 n := by
  induction h with
  | start => rfl
  | command d f a s _ hk hr ih => rw [C120_other_files L f a d s hr n (hn f a hk), ih]

/-- The results of a command do not depend on what has happened in the directory before (commands that have been interrupted, stale
results, ...), as long as its input files have not been overwritten: there is a set of names that get the same contents as in the
original directory, and no other file is touched. -/
theorem C120_history (L : CliLoader K V Q C) (kind : CliFiles → CliOptions K Q → Prop) (d0 d : Disk C) (h : FHistory L kind d0 d)
    (f : CliFiles) (a : CliOptions K Q) (hin : ∀ f' a', kind f' a' → ∀ n ∈ f.inputs a L d0, n ∉ f'.outputs a')
    (s s0 : FState C) (hs : FRun (cliProgram L f a) d s) (hd : s.prog = .done) (hs0 : FRun (cliProgram L f a) d0 s0) (hd0 : s0.prog = .done) :
    ∃ W : List String, (∀ n ∈ W, n ∈ f.outputs a) ∧ (∀ n ∈ W, s.disk n = s0.disk n ∧ (s.disk n).isSome) ∧
      ∀ n, n ∉ W → s.disk n = d n ∧ s0.disk n = d0 n := by
  have hag : ∀ n ∈ f.inputs a L d0, d0 n = d n := fun n hn => (FHistory_keeps L kind d0 d h n (fun f' a' hk => hin f' a' hk n hn)).symm
  have hw : (cliProgram L f a).writesOf d = (cliProgram L f a).writesOf d0 := by
    rw [writesOf_cli, writesOf_cli, cliLoads_congr L f a d0 d hag]
  rw [FInv_done _ _ _ (FInv_run _ _ _ hs) hd, FInv_done _ _ _ (FInv_run _ _ _ hs0) hd0, hw]
  refine ⟨((cliProgram L f a).writesOf d0).map Prod.fst, ?_, fun n hn => ⟨putAll_mem _ _ _ _ hn, ?_⟩, fun n hn =>
    ⟨putAll_not_mem _ _ _ hn, putAll_not_mem _ _ _ hn⟩⟩
  · intro n hn
    obtain ⟨w, h1, rfl⟩ := List.mem_map.1 hn
    exact writesOf_outputs L f a d0 w h1
  · rw [putAll_mem d (fun _ => none) _ _ hn]
    generalize (cliProgram L f a).writesOf d0 = ws at hn
    have key : ∀ (ws : List (String × C)) (e : Disk C), (n ∈ ws.map Prod.fst ∨ (e n).isSome) → (putAll e ws n).isSome := by
      intro ws
      induction ws with
      | nil =>
        intro e h
        rcases h with h | h
        · simp at h
        · exact h
      | cons w ws ih =>
        intro e h
        show (putAll (e.put w.1 w.2) ws n).isSome
        apply ih
        rw [List.map_cons, List.mem_cons] at h
        rcases h with (h | h) | h
        · right; unfold Disk.put; rw [if_pos h]; rfl
        · left; exact h
        · right; unfold Disk.put; split
          · rfl
          · exact h
    exact key ws _ (Or.inl hn)

/-- A command that has been interrupted, at any moments and any number of times, can simply be repeated: in the end the whole directory is
as if it had never been interrupted, provided that it does not write over its own input files. -/
theorem C120_repeat (L : CliLoader K V Q C) (f : CliFiles) (a : CliOptions K Q) (d0 d : Disk C)
    (h : FHistory L (fun f' a' => f' = f ∧ a' = a) d0 d) (hin : ∀ n ∈ f.inputs a L d0, n ∉ f.outputs a)
    (s s0 : FState C) (hs : FRun (cliProgram L f a) d s) (hd : s.prog = .done) (hs0 : FRun (cliProgram L f a) d0 s0) (hd0 : s0.prog = .done) :
    s.disk = s0.disk := by
  have hag : ∀ d, FHistory L (fun f' a' => f' = f ∧ a' = a) d0 d → ∀ n ∈ f.inputs a L d0, d0 n = d n := fun d h n hn =>
    (FHistory_keeps L _ d0 d h n (fun f' a' hk => by rw [hk.1, hk.2]; exact hin n hn)).symm
  have hw : ∀ d, FHistory L (fun f' a' => f' = f ∧ a' = a) d0 d → (cliProgram L f a).writesOf d = (cliProgram L f a).writesOf d0 := by
    intro d h
    rw [writesOf_cli, writesOf_cli, cliLoads_congr L f a d0 d (hag d h)]
  have hrest : ∀ n, n ∉ ((cliProgram L f a).writesOf d0).map Prod.fst → d n = d0 n := by
    intro n hn
    clear hs
    induction h with
    | start => rfl
    | command d f' a' s h' hk hr ih =>
      obtain ⟨rfl, rfl⟩ := hk
      rw [FInv_names _ _ _ (FInv_run _ _ _ hr) n (by rw [hw d h']; exact hn), ih]
  rw [FInv_done _ _ _ (FInv_run _ _ _ hs) hd, FInv_done _ _ _ (FInv_run _ _ _ hs0) hd0, hw d h]
  funext n
  by_cases hn : n ∈ ((cliProgram L f a).writesOf d0).map Prod.fst
  · exact putAll_mem _ _ _ _ hn
  · rw [putAll_not_mem _ _ _ hn, putAll_not_mem _ _ _ hn, hrest n hn]

/-- Commands that run at the same time in one directory, in any interleaving, each of them ended, killed or still running: if none writes
files that another one reads or writes, then those that have ended have written what they write alone, and files that nobody writes are
as before. -/
theorem C120_simultaneous {ι : Type} [DecidableEq ι] (L : CliLoader K V Q C) (f : ι → CliFiles) (a : ι → CliOptions K Q) (d : Disk C)
    (hdis : ∀ i j, i ≠ j → ∀ n ∈ (f i).outputs (a i), n ∉ (f j).outputs (a j) ∧ n ∉ (f j).inputs (a j) L d)
    (ps : ι → FileProg C × Bool) (e : Disk C) (h : Relation.ReflTransGen MStep (fun i => (cliProgram L (f i) (a i), false), d) (ps, e)) :
    (∀ i, (ps i).1 = .done → ∀ s, FRun (cliProgram L (f i) (a i)) d s → s.prog = .done → ∀ n ∈ (f i).outputs (a i), e n = s.disk n) ∧
    ∀ n, (∀ i, n ∉ (f i).outputs (a i)) → (Nonempty ι) → e n = d n := by
  have hinv := MInv_run (fun i => cliProgram L (f i) (a i)) d (fun i n => n ∈ (f i).outputs (a i))
    (fun i w hw => writesOf_outputs L (f i) (a i) d w hw)
    (fun i j hij n hn hc => (hdis j i (Ne.symm hij) n hc).2 (readsOf_cli L (f i) (a i) d n hn)) _ h
  refine ⟨fun i hi s hs hsd n hn => ?_, fun n hn ⟨i⟩ => ?_⟩
  · obtain ⟨ei, h1, h2⟩ := hinv i
    have h3 : e n = ei n := h2 n (fun j hj hc => (hdis i j (Ne.symm hj) n hn).1 hc)
    rw [h3, FInv_done _ _ _ (FInv_run _ _ _ hs) hsd]
    have := FInv_done _ _ _ (FInv_run _ _ _ h1) hi
    exact congrFun this n
  · obtain ⟨ei, h1, h2⟩ := hinv i
    have h3 : e n = ei n := h2 n (fun j hj hc => hn j hc)
    rw [h3]
    exact C120_other_files L (f i) (a i) d _ h1 n (hn i)

theorem earlyLate_nodup (a : CliOptions K Q) : (a.earlyTasks ++ a.lateTasks).Nodup := by
  have key : ∀ (b : Bool) (t : CliTask), (if b then [t] else []).Sublist [t] := by
    intro b t; cases b <;> simp
  have hs : (a.earlyTasks ++ a.lateTasks).Sublist (([.saveVcHdf5] ++ [.saveVq] ++ [.saveVc (a.saveVc.getD 0)]) ++
      ([.saveForceConstants] ++ [.saveBands] ++ [.saveFull] ++ [.saveWave] ++ [.savePhonon] ++ [.plotFull] ++ [.plotWave] ++ [.plotPhonon] ++
       [.saveQuasiparticles] ++ [.saveMesh] ++ [.scan] ++ [.peaks] ++ [.thermal a.thermalReference] ++ [.thermalFull a.thermalReference] ++
       [.partials])) := by
    unfold CliOptions.earlyTasks CliOptions.lateTasks
    refine List.Sublist.append (List.Sublist.append (List.Sublist.append (key _ _) (key _ _)) ?_) ?_
    · cases a.saveVc <;> simp
    · repeat' apply List.Sublist.append
      all_goals exact key _ _
  refine hs.nodup ?_
  simp

/-- After a command that has come to its end, the file of each result that was asked for has the text of that result (those of C102), if
no other option has the same name. -/
theorem C120_contents (L : CliLoader K V Q C) (f : CliFiles) (a : CliOptions K Q) (d : Disk C) (s : FState C)
    (h : FRun (cliProgram L f a) d s) (hd : s.prog = .done) (hf : ∀ n, f.source ≠ .create n) (x : CliLoaded K V Q C)
    (hx : cliLoads L f a d = some x) (outs : List (CliTask × CliResult K V Q)) (ho : cliRun x.env x.types a x.settings = some outs) :
    (∀ t r n, (t, r) ∈ outs → f.ofTask t = some n → (∀ t' ∈ a.earlyTasks ++ a.lateTasks, f.ofTask t' = some n → t' = t) →
      n ∉ f.data → n ∉ f.displacements → (f.frequencies = true → n ≠ "renormalized_frequencies") → s.disk n = some (x.render t r)) ∧
    (∀ n ∈ f.data, (∀ t' ∈ a.earlyTasks ++ a.lateTasks, f.ofTask t' ≠ some n) → n ∉ f.displacements →
      (f.frequencies = true → n ≠ "renormalized_frequencies") → s.disk n = some x.dataText) ∧
    (∀ n ∈ f.displacements, (∀ t' ∈ a.earlyTasks ++ a.lateTasks, f.ofTask t' ≠ some n) → n ∉ f.data →
      (f.frequencies = true → n ≠ "renormalized_frequencies") → s.disk n = some x.displacementText) := by
  have hdisk := FInv_done _ _ _ (FInv_run _ _ _ h) hd
  rw [writesOf_cli, hx] at hdisk
  unfold cliRun at ho
  cases hc : (cliSetup x.types a x.settings : Option (Quasi K V Q)) with
  | none => rw [hc] at ho; simp at ho
  | some o =>
    rw [hc, Option.map_some, Option.some.injEq] at ho
    have houts : outs = (runTasks x.env o a.earlyTasks).2 ++ (runTasks x.env (cliLate x a o) a.lateTasks).2 := ho.symm
    have hfst : outs.map Prod.fst = a.earlyTasks ++ a.lateTasks := by rw [houts, List.map_append, runTasks_fst, runTasks_fst]
    have hmem := cliWrites_mem f a x hf o hc
    have hsound : ∀ w ∈ cliWrites f a x, (∃ t r, (t, r) ∈ outs ∧ f.ofTask t = some w.1 ∧ w.2 = x.render t r) ∨
        (f.frequencies = true ∧ w.1 = "renormalized_frequencies") ∨
        (∃ n ∈ f.data, w = (n, x.dataText)) ∨ ∃ n ∈ f.displacements, w = (n, x.displacementText) := by
      intro w hw
      rcases (hmem w).1 hw with hw | hw | hw | hw
      · rcases taskWrites_sound f x _ _ w hw with ⟨t, r, h1, h2⟩ | h'
        · exact Or.inl ⟨t, r, by rw [houts]; exact List.mem_append_left _ h1, h2⟩
        · exact Or.inr (Or.inl h')
      · rcases taskWrites_sound f x _ _ w hw with ⟨t, r, h1, h2⟩ | h'
        · exact Or.inl ⟨t, r, by rw [houts]; exact List.mem_append_right _ h1, h2⟩
        · exact Or.inr (Or.inl h')
      · exact Or.inr (Or.inr (Or.inl hw))
      · exact Or.inr (Or.inr (Or.inr hw))
    have hin : ∀ t r, (t, r) ∈ outs → t ∈ a.earlyTasks ++ a.lateTasks := by
      intro t r hr; rw [← hfst]; exact List.mem_map.2 ⟨_, hr, rfl⟩
    refine ⟨?_, ?_, ?_⟩
    · intro t r n hr hn hu h1 h2 h3
      rw [hdisk]
      apply putAll_value
      · apply (hmem _).2
        rw [houts, List.mem_append] at hr
        rcases hr with hr | hr
        · exact Or.inl (taskWrites_complete f x _ _ t r hr n hn)
        · exact Or.inr (Or.inl (taskWrites_complete f x _ _ t r hr n hn))
      · intro c' hc'
        rcases hsound _ hc' with ⟨t', r', g1, g2, g3⟩ | ⟨g1, g2⟩ | ⟨m, g1, g2⟩ | ⟨m, g1, g2⟩
        · have e1 : t' = t := hu t' (hin _ _ g1) g2
          subst e1
          have e2 : r' = r := by
            have hnd : (outs.map Prod.fst).Nodup := by rw [hfst]; exact earlyLate_nodup a
            have := List.inj_on_of_nodup_map hnd g1 hr rfl
            exact (Prod.mk.inj this).2
          have g3' : c' = _ := g3
          rw [g3', e2]
        · exact absurd g2 (h3 g1)
        · rw [Prod.mk.injEq] at g2; rw [g2.1] at h1; exact absurd g1 h1
        · rw [Prod.mk.injEq] at g2; rw [g2.1] at h2; exact absurd g1 h2
    · intro n hn hu h2 h3
      rw [hdisk]
      apply putAll_value
      · exact (hmem _).2 (Or.inr (Or.inr (Or.inl ⟨n, hn, rfl⟩)))
      · intro c' hc'
        rcases hsound _ hc' with ⟨t', r', g1, g2, g3⟩ | ⟨g1, g2⟩ | ⟨m, g1, g2⟩ | ⟨m, g1, g2⟩
        · exact absurd g2 (hu t' (hin _ _ g1))
        · exact absurd g2 (h3 g1)
        · exact (Prod.mk.inj g2).2
        · rw [Prod.mk.injEq] at g2; rw [g2.1] at h2; exact absurd g1 h2
    · intro n hn hu h2 h3
      rw [hdisk]
      apply putAll_value
      · exact (hmem _).2 (Or.inr (Or.inr (Or.inr ⟨n, hn, rfl⟩)))
      · intro c' hc'
        rcases hsound _ hc' with ⟨t', r', g1, g2, g3⟩ | ⟨g1, g2⟩ | ⟨m, g1, g2⟩ | ⟨m, g1, g2⟩
        · exact absurd g2 (hu t' (hin _ _ g1))
        · exact absurd g2 (h3 g1)
        · rw [Prod.mk.injEq] at g2; rw [g2.1] at h2; exact absurd g1 h2
        · exact (Prod.mk.inj g2).2

theorem runTask_com {env : QEnv K V Q} (hd : 0 < env.dosLimit) {o : Quasi K V Q} (h : QInv env o) (hp : o.psPartials = none) (t : CliTask)
    (c0 : List (ComEntry K V Q)) (hc0 : specCom env o.s = c0) :
    specCom env (runTask env o t).1.s = c0 ∧ (∀ c, (runTask env o t).1.com = some c → c = c0) ∧
    (runTask env o t).1.com.isSome = (t.usesCom || o.com.isSome) ∧ QInv env (runTask env o t).1 ∧
    (t ≠ .partials → (runTask env o t).1.psPartials = none) := by
  obtain ⟨-, h2, h3, h4, h5⟩ := runTask_spec hd h hp o.s (Or.inl rfl) o.com.isSome rfl t
  have hs : specCom env (runTask env o t).1.s = c0 := by
    rw [← hc0]
    rcases h5 with e | e <;> rw [e] <;> split <;> rfl
  exact ⟨hs, fun c hc => ((h3.com c hc).2).trans hs, h2, h3, h4⟩

/-- The table of frequencies in a sequence of calls. -/
theorem taskWrites_freq (f : CliFiles) (x : CliLoaded K V Q C) (hd : 0 < x.env.dosLimit) (c0 : List (ComEntry K V Q)) (ts : List CliTask) :
    ∀ (o : Quasi K V Q), QInv x.env o → o.psPartials = none → specCom x.env o.s = c0 →
    (∀ i t, ts[i]? = some t → t = .partials → i + 1 = ts.length) →
    (∀ c, ("renormalized_frequencies", c) ∈ taskWrites f x o ts → (∃ t ∈ ts, f.ofTask t = some "renormalized_frequencies") ∨ c = x.freqText c0) ∧
    (f.frequencies = true → o.com = none → (∃ t ∈ ts, t.usesCom = true) → ("renormalized_frequencies", x.freqText c0) ∈ taskWrites f x o ts) := by
  induction ts with
  | nil =>
    intro o _ _ _ _
    refine ⟨fun c h => ?_, fun _ _ h => ?_⟩
    · simp [taskWrites] at h
    · obtain ⟨t, h, _⟩ := h; simp at h
  | cons t ts ih =>
    intro o hi hp hs hl
    obtain ⟨k1, k2, k3, k4, k5⟩ := runTask_com hd hi hp t c0 hs
    have hts : t = .partials → ts = [] := by
      intro ht
      have := hl 0 t rfl ht
      simpa using this
    have hl' : ∀ i t', ts[i]? = some t' → t' = .partials → i + 1 = ts.length := by
      intro i t' h1 h2
      have := hl (i + 1) t' (by simpa using h1) h2
      simpa using this
    have ih' : ts = [] ∨ _ := if h : t = .partials then Or.inl (hts h) else Or.inr (ih _ k4 (k5 h) k1 hl')
    constructor
    · intro c hc
      simp only [taskWrites, List.mem_append] at hc
      rcases hc with (hc | hc) | hc
      · right
        split at hc
        · rename_i c1 _ hc1
          split at hc
          · rw [List.mem_singleton, Prod.mk.injEq] at hc
            rw [hc.2, k2 _ hc1]
          · simp at hc
        · simp at hc
      · left
        split at hc
        · rename_i n hn
          rw [List.mem_singleton, Prod.mk.injEq] at hc
          exact ⟨t, List.mem_cons_self, by rw [hn, hc.1]⟩
        · simp at hc
      · rcases ih' with rfl | ih'
        · simp [taskWrites] at hc
        · rcases ih'.1 c hc with ⟨t', h1, h2⟩ | h'
          · exact Or.inl ⟨t', List.mem_cons_of_mem _ h1, h2⟩
          · exact Or.inr h'
    · intro hf hn hu
      simp only [taskWrites, List.mem_append]
      by_cases hc : t.usesCom = true
      · left; left
        rw [hc, Bool.true_or, Option.isSome_iff_exists] at k3
        obtain ⟨c, hc⟩ := k3
        rw [hn, hc, k2 c hc]
        simp [hf]
      · right
        rcases ih' with rfl | ih'
        · obtain ⟨t', h1, h2⟩ := hu
          rw [List.mem_singleton] at h1
          rw [h1] at h2; exact absurd h2 hc
        · apply ih'.2 hf
          · rw [hn] at k3
            have hc' : t.usesCom = false := by simpa using hc
            rw [hc'] at k3
            rcases h : (runTask x.env o t).1.com with _ | c
            · rfl
            · rw [h] at k3; exact absurd k3 (by simp)
          · obtain ⟨t', h1, h2⟩ := hu
            rcases List.mem_cons.1 h1 with rfl | h1
            · exact absurd h2 hc
            · exact ⟨t', h1, h2⟩

/-- The object before the later calls. -/
theorem cliLate_spec (x : CliLoaded K V Q C) (hd : 0 < x.env.dosLimit) (a : CliOptions K Q) (hv : x.settings.freq.Valid) (ha : a.Sane)
    (o : Quasi K V Q) (ho : (cliSetup x.types a x.settings : Option (Quasi K V Q)) = some o) :
    (QInv x.env o ∧ o.psPartials = none ∧ specCom x.env o.s = specCom x.env (earlySettings a x.settings)) ∧
    QInv x.env (cliLate x a o) ∧ (cliLate x a o).psPartials = none ∧ (cliLate x a o).com = none ∧
    specCom x.env (cliLate x a o).s = specCom x.env (lateSettings a x.settings) := by
  obtain ⟨hc, hok⟩ | ⟨hc, hok⟩ := C102_options (V := V) x.types a x.settings hv ha.1
  · rw [hc] at ho; simp at ho
  · rw [hc, Option.some.injEq] at ho
    have hvv : (askedFreq a x.settings.freq).Valid := askedFreq_valid a x.settings.freq hv ha.1
    have hi : QInv x.env (Quasi.fresh (earlySettings a x.settings)) := QInv.fresh x.env _ hvv
    have ho' : o = Quasi.fresh (earlySettings a x.settings) := ho.symm
    have hany' : a.earlyTasks.any CliTask.usesCom = false := by
      rw [List.any_eq_false]
      intro t ht
      rw [(early_usesCom a t ht).1]; simp
    obtain ⟨-, e2, e3, e4, e5⟩ := runTasks_spec hd a.earlyTasks hi rfl (earlySettings a x.settings) (Or.inl rfl) false rfl
      (fun i t hi ht => absurd ht (early_usesCom a t (List.mem_of_getElem? hi)).2)
    rw [hany'] at e4 e5
    have e3 := e3 (fun hm => (early_usesCom a _ hm).2 rfl)
    rw [← ho'] at e2 e3 e4 e5 hi
    set o2 := (runTasks x.env o a.earlyTasks).1 with ho2
    have hcn : o2.com = none := by
      rcases hoc : o2.com with _ | c
      · rfl
      · rw [hoc] at e4; exact absurd e4 (by simp)
    refine ⟨⟨hi, by rw [ho']; rfl, by rw [ho']; rfl⟩, ?_⟩
    have hse : specCom x.env o2.s = specCom x.env (earlySettings a x.settings) := by
      have e5' : SameSettings x.env (earlySettings a x.settings) o2.s := e5
      rcases e5' with e | e <;> rw [e]; rfl
    unfold cliLate
    rw [← ho2]
    rcases hl : a.limits with _ | ⟨u, v⟩
    · refine ⟨e2, e3, hcn, ?_⟩
      have : lateSettings a x.settings = earlySettings a x.settings := by unfold lateSettings earlySettings askedLimits; rw [hl]
      rw [this]; exact hse
    · obtain ⟨g1, g2, g3⟩ := e2.setLimits u v (ha.2 u v hl)
      refine ⟨g1, (setLimits_partials o2 u v).trans e3, g3 hcn, ?_⟩
      dsimp only
      have h1 : specCom x.env (o2.setLimits u v).s = specCom x.env o2.s := by rw [g2]; rfl
      have h2 : specCom x.env (lateSettings a x.settings) = specCom x.env (earlySettings a x.settings) := by
        unfold lateSettings earlySettings askedLimits asked; rw [hl]; rfl
      rw [h1, h2, hse]

/-- The table of renormalized frequencies (`--save_renormalized_frequencies`) is that of the settings asked for, and is written whenever a
result needs it. -/
theorem C120_frequencies (L : CliLoader K V Q C) (f : CliFiles) (a : CliOptions K Q) (d : Disk C) (s : FState C)
    (h : FRun (cliProgram L f a) d s) (hd : s.prog = .done) (hf : ∀ n, f.source ≠ .create n) (x : CliLoaded K V Q C)
    (hx : cliLoads L f a d = some x) (outs : List (CliTask × CliResult K V Q)) (ho : cliRun x.env x.types a x.settings = some outs)
    (hdos : 0 < x.env.dosLimit) (hv : x.settings.freq.Valid) (ha : a.Sane) (hfr : f.frequencies = true)
    (hu : ∃ t ∈ a.lateTasks, t.usesCom = true)
    (hn : (∀ t' ∈ a.earlyTasks ++ a.lateTasks, f.ofTask t' ≠ some "renormalized_frequencies") ∧ "renormalized_frequencies" ∉ f.data ∧
      "renormalized_frequencies" ∉ f.displacements) :
    s.disk "renormalized_frequencies" = some (x.freqText (specCom x.env (lateSettings a x.settings))) := by
  have hdisk := FInv_done _ _ _ (FInv_run _ _ _ h) hd
  rw [writesOf_cli, hx] at hdisk
  unfold cliRun at ho
  cases hc : (cliSetup x.types a x.settings : Option (Quasi K V Q)) with
  | none => rw [hc] at ho; simp at ho
  | some o =>
    obtain ⟨⟨i1, i2, i3⟩, l1, l2, l3, l4⟩ := cliLate_spec x hdos a hv ha o hc
    have hmem := cliWrites_mem f a x hf o hc
    have hE := taskWrites_freq f x hdos _ a.earlyTasks o i1 i2 i3 (fun i t hi ht => absurd ht (early_usesCom a t (List.mem_of_getElem? hi)).2)
    have hL := taskWrites_freq f x hdos _ a.lateTasks (cliLate x a o) l1 l2 l4 (late_partials a)
    have hse : specCom x.env (lateSettings a x.settings) = specCom x.env (earlySettings a x.settings) := by
      unfold lateSettings earlySettings askedLimits asked
      cases a.limits <;> rfl
    rw [hdisk]
    apply putAll_value
    · exact (hmem _).2 (Or.inr (Or.inl (hL.2 hfr l3 hu)))
    · intro c' hc'
      rcases (hmem _).1 hc' with g | g | ⟨m, g1, g2⟩ | ⟨m, g1, g2⟩
      · rcases hE.1 c' g with ⟨t, h1, h2⟩ | h'
        · exact absurd h2 (hn.1 t (List.mem_append_left _ h1))
        · rw [h', hse]
      · rcases hL.1 c' g with ⟨t, h1, h2⟩ | h'
        · exact absurd h2 (hn.1 t (List.mem_append_right _ h1))
        · exact h'
      · rw [Prod.mk.injEq] at g2; rw [← g2.1] at g1; exact absurd g1 hn.2.1
      · rw [Prod.mk.injEq] at g2; rw [← g2.1] at g1; exact absurd g1 hn.2.2

end cli

/-! ## Examples -/

/-- Readers for the examples. A content is a number; the harmonic frequencies are those of the file of the forces. -/
def demoLoader : CliLoader ℚ (List ℚ) ℤ ℚ where
  structureFile _ := "POSCAR"
  forceFile _ := some "FORCE_CONSTANTS"
  load cs := some
    { env := { demoEnv with frq := fun q => [cs.getD 2 0 + q, cs.getD 2 0 + q + 1, cs.getD 2 0 + q + 2],
                            fit := fun _ _ h _ f _ => (h.map (· + (f : ℚ) + 1), h) }
      types := 2, settings := demoSettings
      render := fun _ r => match r with
        | .renormalized c => (c.map fun e => e.freqs.sum).sum
        | .curve r _ => r.sum
        | _ => 0
      freqText := fun c => (c.map fun e => e.freqs.sum).sum
      dataText := cs.getD 3 0, displacementText := 7, createText := 8 }

/-- A directory with the input files. -/
def demoDisk : Disk ℚ := fun n =>
  if n = "input" then some 1 else if n = "POSCAR" then some 2 else if n = "FORCE_CONSTANTS" then some 3 else if n = "MD" then some 4 else none

def demoFiles : CliFiles :=
  { input := "input", source := .file "MD", forceConstants := "FC_new", full := "full.dat", data := some "velocity.h5", frequencies := true }

/-- The names of the example meet the hypotheses of `C120_repeat` and `C120_history`; it writes four files. -/
example : (∀ n ∈ demoFiles.inputs (K := ℚ) (Q := ℤ) { saveForceConstants := true, saveFull := true } demoLoader demoDisk,
      n ∉ demoFiles.outputs (K := ℚ) (Q := ℤ) { saveForceConstants := true, saveFull := true }) ∧
    ((cliProgram demoLoader demoFiles { saveForceConstants := true, saveFull := true }).writesOf demoDisk).map Prod.fst =
      ["velocity.h5", "renormalized_frequencies", "FC_new", "full.dat"] ∧
    (cliLoads demoLoader demoFiles { saveForceConstants := true, saveFull := true } demoDisk).isSome = true := by
  refine ⟨?_, ?_, ?_⟩ <;> decide +kernel

/-- False if a result is written over an input file: `-sfc FORCE_CONSTANTS` replaces the force constants from which it has been calculated, and the
same command again gives something else. -/
theorem C120_overwrite_violated : ∃ (L : CliLoader ℚ (List ℚ) ℤ ℚ) (f : CliFiles) (a : CliOptions ℚ ℤ) (d : Disk ℚ) (s s' : FState ℚ),
    a.saveForceConstants = true ∧ f.forceConstants = "FORCE_CONSTANTS" ∧
    FRun (cliProgram L f a) d s ∧ s.prog = .done ∧ FRun (cliProgram L f a) s.disk s' ∧ s'.prog = .done ∧
    s.disk "FORCE_CONSTANTS" ≠ s'.disk "FORCE_CONSTANTS" := by
  let f : CliFiles := { demoFiles with forceConstants := "FORCE_CONSTANTS" }
  let a : CliOptions ℚ ℤ := { saveForceConstants := true }
  obtain ⟨s, h1, h2⟩ := FRun_ends (cliProgram demoLoader f a) demoDisk
  obtain ⟨s', h3, h4⟩ := FRun_ends (cliProgram demoLoader f a) s.disk
  refine ⟨demoLoader, f, a, demoDisk, s, s', rfl, rfl, h1, h2, h3, h4, ?_⟩
  rw [FInv_done _ _ _ (FInv_run _ _ _ h3) h4, FInv_done _ _ _ (FInv_run _ _ _ h1) h2]
  decide +kernel

/-- False for `-sdata`, the name of whose file cannot be chosen: another command in the same directory, with another fitting function, silently replaces
the quasiparticle data, although no name has been given twice. -/
theorem C120_fixed_names_violated : ∃ (L : CliLoader ℚ (List ℚ) ℤ ℚ) (f : CliFiles) (a a' : CliOptions ℚ ℤ) (d : Disk ℚ) (s s' : FState ℚ),
    a.saveQuasiparticles = true ∧ a'.saveQuasiparticles = true ∧ f.outputs a = ["quasiparticles_data.yaml"] ∧
    FRun (cliProgram L f a) d s ∧ s.prog = .done ∧ FRun (cliProgram L f a') s.disk s' ∧ s'.prog = .done ∧
    s.disk "quasiparticles_data.yaml" ≠ s'.disk "quasiparticles_data.yaml" := by
  let f : CliFiles := { input := "input", source := .file "MD" }
  let a : CliOptions ℚ ℤ := { saveQuasiparticles := true }
  let a' : CliOptions ℚ ℤ := { saveQuasiparticles := true, fit := 1 }
  obtain ⟨s, h1, h2⟩ := FRun_ends (cliProgram demoLoader f a) demoDisk
  obtain ⟨s', h3, h4⟩ := FRun_ends (cliProgram demoLoader f a') s.disk
  refine ⟨demoLoader, f, a, a', demoDisk, s, s', rfl, rfl, rfl, h1, h2, h3, h4, ?_⟩
  rw [FInv_done _ _ _ (FInv_run _ _ _ h3) h4, FInv_done _ _ _ (FInv_run _ _ _ h1) h2]
  decide +kernel

end Verif
