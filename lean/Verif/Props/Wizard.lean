import Verif.Props.UpdateCli
import Verif.Model.Wizard
import Verif.Model.History
import Verif.Spec.Terms.Wizard

/-!
# C42: the wizard and the operator's configuration; C58: can the server read it?
-/

namespace Ruroco

open Spec

/-! ## Contracts -/

theorem writeData_spec (p : Path) (data : List Byte) (w : World) : wp (writeData p data) w (fun o w' => Touch (· = p) w w' ∧
    (o = .ok () → ∃ f, w'.fs p = some f ∧ f.data = data ∧ (w.fs p = none → f.owner = .creator) ∧ ∀ g, w.fs p = some g → f.mode = g.mode ∧ f.owner = g.owner)) := by
  unfold writeData openTrunc
  rw [wp_bind]
  have created : ∀ (o : List Choice) (g : File), Touch (· = p) w (World.setEntry { w with log := w.log ++ [.file .openTrunc p], oracle := o } p (some g)) :=
    fun o g => ⟨fun q hq => by simp [World.setEntry, hq], List.prefix_append _ _⟩
  have same : ∀ (o : List Choice), Touch (· = p) w { w with log := w.log ++ [.file .openTrunc p], oracle := o } :=
    fun o => ⟨fun _ _ => rfl, List.prefix_append _ _⟩
  refine wp_atomicCall _ _ _ _ (fun o => ?_) (fun o => ⟨same o, nofun⟩) (fun o => ⟨same o, nofun⟩) (fun o => ⟨created o _, nofun⟩)
  simp only
  have hc := created o ⟨[], (match w.fs p with | some f => f.mode | none => w.newMode), false, (match w.fs p with | some f => f.owner | none => .creator)⟩
  have hf : (World.setEntry { w with log := w.log ++ [.file .openTrunc p], oracle := o } p
    (some ⟨[], (match w.fs p with | some f => f.mode | none => w.newMode), false, (match w.fs p with | some f => f.owner | none => .creator)⟩)).fs p =
      some ⟨[], (match w.fs p with | some f => f.mode | none => w.newMode), false, (match w.fs p with | some f => f.owner | none => .creator)⟩ := if_pos rfl
  refine wp_mono (writeAll_spec p data _ _ hf) ?_
  rintro o2 w2 ⟨ht, b, hb, hmode, hown, _, hok⟩
  refine ⟨hc.trans ht, fun ho => ⟨b, hb, ?_, ?_, ?_⟩⟩
  · rw [hok ho]
    rfl
  · intro hn
    rw [hown]
    simp only [hn]
  · intro g hg
    rw [hmode, hown]
    simp only [hg]
    exact ⟨trivial, trivial⟩

theorem setPermissions_spec (p : Path) (mode : Nat) (w : World) : wp (setPermissions p mode) w (fun o w' => Touch (· = p) w w' ∧
    (∀ f, w.fs p = some f → ∃ f', w'.fs p = some f' ∧ f'.data = f.data ∧ f'.owner = f.owner ∧ (o = .ok () → f'.mode = mode)) ∧ (w.fs p = none → w'.fs p = none ∧ o ≠ .ok ())) := by
  unfold setPermissions stat
  rw [wp_bind, wp_bind]
  have same : ∀ (o : List Choice) (out : Out Unit), out ≠ .ok () → Touch (· = p) w { w with log := w.log ++ [.file .stat p], oracle := o } ∧
      (∀ f, w.fs p = some f → ∃ f', w.fs p = some f' ∧ f'.data = f.data ∧ f'.owner = f.owner ∧ (out = .ok () → f'.mode = mode)) ∧ (w.fs p = none → w.fs p = none ∧ out ≠ .ok ()) :=
    fun o out ho => ⟨⟨fun _ _ => rfl, List.prefix_append _ _⟩, fun f hf => ⟨f, hf, rfl, rfl, fun h => absurd h ho⟩, fun h => ⟨h, ho⟩⟩
  refine wp_atomicCall _ _ _ _ (fun o => ?_) (fun o => same o _ nofun) (fun o => same o _ nofun) (fun o => same o _ nofun)
  simp only [id]
  rw [wp_bind, wp_peek]
  simp only
  cases hf : w.fs p with
  | none =>
    simp only
    rw [wp_throw]
    exact ⟨⟨fun _ _ => rfl, List.prefix_append _ _⟩, nofun, fun _ => ⟨hf, nofun⟩⟩
  | some f =>
    simp only
    rw [wp_pure]
    simp only
    unfold chmod
    rw [wp_bind, wp_peek]
    simp only [hf]
    have eff : ∀ (o2 : List Choice) (out : Out Unit), Touch (· = p) w (World.setFile { w with log := (w.log ++ [.file .stat p]) ++ [.file .chmod p], oracle := o2 } p (some { f with mode })) ∧
        (∀ f', some f = some f' → ∃ f'', (World.setFile { w with log := (w.log ++ [.file .stat p]) ++ [.file .chmod p], oracle := o2 } p (some { f with mode })).fs p = some f'' ∧
          f''.data = f'.data ∧ f''.owner = f'.owner ∧ (out = .ok () → f''.mode = mode)) ∧
        (some f = none → (World.setFile { w with log := (w.log ++ [.file .stat p]) ++ [.file .chmod p], oracle := o2 } p (some { f with mode })).fs p = none ∧ out ≠ .ok ()) := by
      intro o2 out
      refine ⟨⟨fun q hq => if_neg hq, ?_⟩, ?_, nofun⟩
      · simp only [World.setFile, List.append_assoc]
        exact List.prefix_append _ _
      · intro f' hf'
        cases hf'
        exact ⟨_, if_pos rfl, rfl, rfl, fun _ => rfl⟩
    have same2 : ∀ (o2 : List Choice) (out : Out Unit), out ≠ .ok () → Touch (· = p) w { w with log := (w.log ++ [.file .stat p]) ++ [.file .chmod p], oracle := o2 } ∧
        (∀ f', some f = some f' → ∃ f'', w.fs p = some f'' ∧ f''.data = f'.data ∧ f''.owner = f'.owner ∧ (out = .ok () → f''.mode = mode)) ∧ (some f = none → w.fs p = none ∧ out ≠ .ok ()) := by
      intro o2 out ho
      refine ⟨⟨fun _ _ => rfl, ?_⟩, ?_, nofun⟩
      · simp only [List.append_assoc]
        exact List.prefix_append _ _
      · intro f' hf'
        cases hf'
        exact ⟨f, hf, rfl, rfl, fun h => absurd h ho⟩
    exact wp_atomicCall _ _ _ _ (fun o2 => eff o2 _) (fun o2 => same2 o2 _ nofun) (fun o2 => same2 o2 _ nofun) (fun o2 => eff o2 _)

/-- `init_config_file` / `init_commands_file`. -/
structure Inited (p : Path) (template : List Byte) (o : Out Unit) (w w' : World) : Prop where
  touch : Touch (· = p) w w'
  keep : .statFailed p ∉ w'.log → ∀ f, w.fs p = some f → ∃ f', w'.fs p = some f' ∧ f'.data = f.data ∧ f'.owner = f.owner
  done : o = .ok () → ∃ f', w'.fs p = some f' ∧ f'.mode = 0o600 ∧ (w.fs p = none → f'.data = template ∧ f'.owner = .creator)

theorem initFile_spec (p : Path) (template : List Byte) (w : World) : wp (initFile p template) w (fun o w' => Inited p template o w w') := by
  unfold initFile
  rw [wp_bind]
  refine wp_mono (pathExists_spec p w) ?_
  rintro o w1 ⟨hfs, hlog, hnerr, hb⟩
  have t1 : Touch (· = p) w w1 := ⟨fun q _ => by rw [hfs], hlog⟩
  cases o with
  | err e => exact absurd rfl (hnerr e)
  | crash => exact ⟨t1, fun _ f hf => ⟨f, by rw [hfs]; exact hf, rfl, rfl⟩, nofun⟩
  | ok b =>
    simp only
    cases b with
    | true =>
      have hsome : ∃ f, w.fs p = some f := by
        rcases hb true rfl with h | ⟨h, _⟩
        · exact Option.isSome_iff_exists.1 h.symm
        · cases h
      rw [if_neg (by decide)]
      refine wp_mono (setPermissions_spec p 0o600 w1) ?_
      rintro o w2 ⟨ht, hsm, hnone⟩
      obtain ⟨f, hf⟩ := hsome
      obtain ⟨f', hf', hd, ho, hm⟩ := hsm f (by rw [hfs]; exact hf)
      refine ⟨t1.trans ht, ?_, ?_⟩
      · intro _ g hg
        rw [hf] at hg
        cases hg
        exact ⟨f', hf', hd, ho⟩
      · intro hok
        exact ⟨f', hf', hm hok, by rw [hf]; nofun⟩
    | false =>
      rw [if_pos (by decide), wp_bind]
      have hnone : .statFailed p ∉ w1.log → w.fs p = none := by
        intro hn
        rcases hb false rfl with h | ⟨_, h⟩
        · simpa using h.symm
        · exact absurd h hn
      refine wp_mono (writeData_spec p template w1) ?_
      rintro o w2 ⟨h2, hok2⟩
      have t2 := t1.trans h2
      have vac : ∀ w' : World, Touch (· = p) w w' → w1.log <+: w'.log → .statFailed p ∉ w'.log → ∀ f, w.fs p = some f → ∃ f', w'.fs p = some f' ∧ f'.data = f.data ∧ f'.owner = f.owner := by
        intro w' _ hl hn f hf
        rw [hnone (fun hm => hn (hl.subset hm))] at hf
        cases hf
      cases o with
      | err e => exact ⟨t2, vac w2 t2 h2.log, nofun⟩
      | crash => exact ⟨t2, vac w2 t2 h2.log, nofun⟩
      | ok u =>
        simp only
        obtain ⟨f, hf, hd, hown⟩ := hok2 rfl
        refine wp_mono (setPermissions_spec p 0o600 w2) ?_
        rintro o w3 ⟨h3, hsm, _⟩
        obtain ⟨f', hf', hd', ho', hm'⟩ := hsm f hf
        refine ⟨t2.trans h3, vac w3 (t2.trans h3) (h2.log.trans h3.log), fun hok => ⟨f', hf', hm' hok, fun hn => ⟨hd'.trans hd, ho'.trans (hown.1 (by rw [hfs]; exact hn))⟩⟩⟩

/-- The two files of the operator. -/
def Operators (p : Path) : Prop := p = CONFIG_TOML_PATH ∨ p = COMMANDS_TOML_PATH

/-- What one run of the wizard does to the two files. -/
structure Wizarded (env : WizEnv) (o : Out Unit) (w w' : World) : Prop where
  log : w.log <+: w'.log
  keep : ∀ p, Operators p → .statFailed p ∉ w'.log → ∀ f, w.fs p = some f → ∃ f', w'.fs p = some f' ∧ f'.data = f.data ∧ f'.owner = f.owner
  config : o = .ok () → ∃ f, w'.fs CONFIG_TOML_PATH = some f ∧ f.mode = 0o600 ∧ (w.fs CONFIG_TOML_PATH = none → f.data = env.config ∧ f.owner = .creator)
  commands : o = .ok () → ∃ f, w'.fs COMMANDS_TOML_PATH = some f ∧ f.mode = 0o600 ∧ (w.fs COMMANDS_TOML_PATH = none → f.data = env.commands ∧ f.owner = .creator)

theorem update_log (u : Updater) (env : UpdEnv) (w : World) : w.log <+: (u.update env w).2.log := by
  rcases update_cases u env w with ⟨_, he⟩ | ⟨e, _, he⟩ | ⟨vs, hp, he⟩
  · rw [he]
    exact List.prefix_refl _
  · rw [he]
    exact List.prefix_refl _
  · rw [he]
    exact (update_swapped u env w vs hp).touch.log

/-- The updater of the wizard. -/
def wizardUpdater : Updater := ⟨true, none, "/usr/local/bin".toList, true⟩

/-- The wizard's update is an update of the server side in `/usr/local/bin`, after an attempt to write there. -/
theorem wizardUpdate_spec (env : WizEnv) (w : World) : wp (wizardUpdate env) w (fun o w' => w.log <+: w'.log ∧ (∀ q, ¬ "/usr/local/bin/".toList <+: q → w'.fs q = w.fs q) ∧
    (o = .ok () → ∃ w1, Probed env.dirs "/usr/local/bin".toList w w1 ∧ wizardUpdater.update env.upd w1 = (.ok (), w'))) := by
  unfold wizardUpdate Updater.create
  rw [wp_bind, wp_bind]
  refine wp_mono (chooseBinPath_spec env.dirs wizardArgs w) ?_
  intro o w1 h
  have probed : ∀ q, Probed env.dirs "/usr/local/bin".toList w w1 → ¬ "/usr/local/bin/".toList <+: q → w1.fs q = w.fs q := by
    intro q hp hq
    refine hp.fs q ?_
    rintro ⟨⟨x, _, rfl⟩, _⟩
    exact hq ⟨".tmp".toList ++ x, by rw [show "/usr/local/bin".toList ++ "/.tmp".toList = "/usr/local/bin/".toList ++ ".tmp".toList from rfl, List.append_assoc]⟩
  rcases h with ⟨d, hd, h⟩ | ⟨hn, rfl, e, rfl⟩
  · obtain rfl : d = "/usr/local/bin".toList := hd
    cases o with
    | err e => exact ⟨h.probed.log, fun q hq => probed q h.probed hq, nofun⟩
    | crash => exact ⟨h.probed.log, fun q hq => probed q h.probed hq, nofun⟩
    | ok p =>
      obtain rfl := h.dir p rfl
      simp only
      rw [wp_pure]
      simp only
      refine ⟨h.probed.log.trans (update_log wizardUpdater env.upd w1), fun q hq => ?_, fun ho => ⟨w1, h.probed, Prod.ext ho rfl⟩⟩
      rw [← probed q h.probed hq]
      refine (C43_only_verified wizardUpdater env.upd w1).1 q ?_
      have hl : ∀ (t s : Path), binFile wizardUpdater.binPath t ++ s = "/usr/local/bin/".toList ++ (t ++ s) := by
        intro t s
        unfold binFile wizardUpdater
        rw [show "/usr/local/bin/".toList = "/usr/local/bin".toList ++ ['/'] from rfl]
        simp
      intro t _
      refine ⟨?_, ?_, ?_⟩
      · rintro rfl
        have := hl t.name []
        rw [List.append_nil] at this
        exact hq ⟨_, this.symm⟩
      · rintro rfl
        exact hq ⟨_, (hl _ _).symm⟩
      · rintro ⟨n, rfl⟩
        unfold tmpPath at hq
        exact hq ⟨_, (hl _ _).symm⟩
  · exact absurd rfl (hn "/usr/local/bin".toList)

theorem wizardRun_spec (env : WizEnv) (w : World) : wp (wizardRun env) w (fun o w' => Wizarded env o w w') := by
  -- the part before the operator's files: they are as before
  have pre : ∀ (o : Out Unit) (w' : World), o ≠ .ok () → w.log <+: w'.log → (∀ p, Operators p → w'.fs p = w.fs p) → Wizarded env o w w' := by
    intro o w' ho hl hfs
    exact ⟨hl, fun p hp _ f hf => ⟨f, by rw [hfs p hp]; exact hf, rfl, rfl⟩, fun h => absurd h ho, fun h => absurd h ho⟩
  unfold wizardRun
  rw [wp_bind]
  have huser : wp (createRurocoUser env.useradd) w (fun _ w' => w.log <+: w'.log ∧ w'.fs = w.fs) := by
    unfold createRurocoUser
    rw [wp_bind, wp_note]
    simp only
    split
    · exact ⟨List.prefix_append _ _, rfl⟩
    · split <;> exact ⟨List.prefix_append _ _, rfl⟩
  refine wp_mono huser ?_
  rintro o w0 ⟨l0, f0⟩
  cases o with
  | err e => exact pre _ _ nofun l0 (fun _ _ => by rw [f0])
  | crash => exact pre _ _ nofun l0 (fun _ _ => by rw [f0])
  | ok u =>
  simp only
  rw [wp_bind]
  have hupd : wp (wizardUpdate env) w0 (fun _ w1 => w.log <+: w1.log ∧ ∀ p, Operators p → w1.fs p = w.fs p) := by
    refine wp_mono (wizardUpdate_spec env w0) ?_
    rintro o w1 ⟨h1, h2, _⟩
    refine ⟨l0.trans h1, fun p hp => ?_⟩
    rw [h2 p (by rcases hp with rfl | rfl <;> decide), f0]
  refine wp_mono hupd ?_
  rintro o w1 ⟨l1, f1⟩
  cases o with
  | err e => exact pre _ _ nofun l1 f1
  | crash => exact pre _ _ nofun l1 f1
  | ok u =>
  simp only
  -- the unit files
  have unit : ∀ (q : Path) (data : List Byte) (w1 : World), (∀ p, Operators p → p ≠ q) → w.log <+: w1.log → (∀ p, Operators p → w1.fs p = w.fs p) →
      wp (writeData q data) w1 (fun _ w2 => w.log <+: w2.log ∧ ∀ p, Operators p → w2.fs p = w.fs p) := by
    intro q data w1 hq l1 f1
    refine wp_mono (writeData_spec q data w1) ?_
    rintro o w2 ⟨ht, _⟩
    exact ⟨l1.trans ht.log, fun p hp => (ht.fs p (hq p hp)).trans (f1 p hp)⟩
  rw [wp_bind]
  refine wp_mono (unit _ _ w1 (by rintro p (rfl | rfl) <;> decide) l1 f1) ?_
  rintro o w2 ⟨l2, f2⟩
  cases o with
  | err e => exact pre _ _ nofun l2 f2
  | crash => exact pre _ _ nofun l2 f2
  | ok u =>
  simp only
  rw [wp_bind]
  refine wp_mono (unit _ _ w2 (by rintro p (rfl | rfl) <;> decide) l2 f2) ?_
  rintro o w3 ⟨l3, f3⟩
  cases o with
  | err e => exact pre _ _ nofun l3 f3
  | crash => exact pre _ _ nofun l3 f3
  | ok u =>
  simp only
  rw [wp_bind]
  refine wp_mono (unit _ _ w3 (by rintro p (rfl | rfl) <;> decide) l3 f3) ?_
  rintro o w4 ⟨l4, f4⟩
  cases o with
  | err e => exact pre _ _ nofun l4 f4
  | crash => exact pre _ _ nofun l4 f4
  | ok u =>
  simp only
  rw [wp_bind]
  -- config.toml
  refine wp_mono (initFile_spec CONFIG_TOML_PATH env.config w4) ?_
  intro o w5 h5
  have hne : COMMANDS_TOML_PATH ≠ CONFIG_TOML_PATH := by decide
  have c4 := f4 CONFIG_TOML_PATH (Or.inl rfl)
  have m4 := f4 COMMANDS_TOML_PATH (Or.inr rfl)
  have m5 : w5.fs COMMANDS_TOML_PATH = w.fs COMMANDS_TOML_PATH := (h5.touch.fs _ hne).trans m4
  have l5 := l4.trans h5.touch.log
  have keep5 : ∀ p, Operators p → .statFailed p ∉ w5.log → ∀ f, w.fs p = some f → ∃ f', w5.fs p = some f' ∧ f'.data = f.data ∧ f'.owner = f.owner := by
    rintro p (rfl | rfl) hn f hf
    · exact h5.keep hn f (by rw [c4]; exact hf)
    · exact ⟨f, by rw [m5]; exact hf, rfl, rfl⟩
  cases o with
  | err e => exact ⟨l5, keep5, nofun, nofun⟩
  | crash => exact ⟨l5, keep5, nofun, nofun⟩
  | ok u =>
  simp only
  rw [wp_bind]
  -- commands.toml
  refine wp_mono (initFile_spec COMMANDS_TOML_PATH env.commands w5) ?_
  intro o w6 h6
  have c6 : w6.fs CONFIG_TOML_PATH = w5.fs CONFIG_TOML_PATH := h6.touch.fs _ (Ne.symm hne)
  have l6 := l5.trans h6.touch.log
  have keep6 : ∀ p, Operators p → .statFailed p ∉ w6.log → ∀ f, w.fs p = some f → ∃ f', w6.fs p = some f' ∧ f'.data = f.data ∧ f'.owner = f.owner := by
    rintro p (rfl | rfl) hn f hf
    · rw [c6]
      exact keep5 _ (Or.inl rfl) (fun hm => hn (h6.touch.log.subset hm)) f hf
    · exact h6.keep hn f (by rw [m5]; exact hf)
  cases o with
  | err e => exact ⟨l6, keep6, nofun, nofun⟩
  | crash => exact ⟨l6, keep6, nofun, nofun⟩
  | ok u =>
  simp only
  have fin : ∀ (o : Out Unit) (w7 : World), w6.log <+: w7.log → w7.fs = w6.fs → Wizarded env o w w7 := by
    intro o w7 hl hfs
    refine ⟨l6.trans hl, ?_, fun _ => ?_, fun _ => ?_⟩
    · rw [hfs]
      exact fun p hp hn => keep6 p hp (fun hm => hn (hl.subset hm))
    · rw [hfs, c6]
      obtain ⟨f, hf, hm, hd⟩ := h5.done rfl
      exact ⟨f, hf, hm, fun hn => hd (by rw [c4]; exact hn)⟩
    · rw [hfs]
      obtain ⟨f, hf, hm, hd⟩ := h6.done rfl
      exact ⟨f, hf, hm, fun hn => hd (by rw [m5]; exact hn)⟩
  have ctl : ∀ (args : List (List Char)) (b : Bool) (w8 : World), w6.log <+: w8.log → w8.fs = w6.fs →
      wp (systemctl args b) w8 (fun _ w9 => w6.log <+: w9.log ∧ w9.fs = w6.fs) := by
    intro args b w8 h1 h2
    unfold systemctl
    rw [wp_bind, wp_note]
    cases b <;> exact ⟨h1.trans (List.prefix_append _ _), h2⟩
  rw [wp_bind]
  refine wp_mono (ctl _ _ w6 (List.prefix_refl _) rfl) ?_
  rintro o w7 ⟨l7, f7⟩
  cases o with
  | err e => exact fin _ _ l7 f7
  | crash => exact fin _ _ l7 f7
  | ok u =>
  simp only
  rw [wp_bind]
  refine wp_mono (ctl _ _ w7 l7 f7) ?_
  rintro o w8 ⟨l8, f8⟩
  cases o with
  | err e => exact fin _ _ l8 f8
  | crash => exact fin _ _ l8 f8
  | ok u =>
  simp only
  refine wp_mono (ctl _ _ w8 l8 f8) ?_
  rintro o w9 ⟨l9, f9⟩
  exact fin _ _ l9 f9

/-! ## C42 -/

theorem wizardRuns_log (rs : List (WizEnv × Env)) (w : World) : w.log <+: (wizardRuns rs w).log := by
  induction rs generalizing w with
  | nil => exact List.prefix_refl _
  | cons r rs ih => exact (wizardRun_spec r.1 (w.withEnv r.2 [])).log.trans (ih _)

/-- **C42**, proved part: any number of runs of the wizard, each ending in success, in an error or in death at any point, leaves an existing `config.toml` and `commands.toml` with the same
bytes and the same owner, provided no `stat` of that file failed. Missing: without the proviso the property is false, see `C42_failed_stat_overwrites`. -/
theorem C42_keeps_configuration_partial (rs : List (WizEnv × Env)) (w : World) (p : Path) (hp : p = "/etc/ruroco/config.toml".toList ∨ p = "/etc/ruroco/commands.toml".toList)
    (hstat : .statFailed p ∉ (wizardRuns rs w).log) (f : File) (hf : w.fs p = some f) :
    ∃ f', (wizardRuns rs w).fs p = some f' ∧ f'.data = f.data ∧ f'.owner = f.owner := by
  induction rs generalizing w f with
  | nil => exact ⟨f, hf, rfl, rfl⟩
  | cons r rs ih =>
    have h := wizardRun_spec r.1 (w.withEnv r.2 [])
    obtain ⟨f1, hf1, hd1, ho1⟩ := h.keep p hp (fun hm => hstat ((wizardRuns_log rs _).subset hm)) f hf
    obtain ⟨f2, hf2, hd2, ho2⟩ := ih _ hstat f1 hf1
    exact ⟨f2, hf2, hd2.trans hd1, ho2.trans ho1⟩

/-- **C42**, unconditionally: a successful run ends with `commands.toml` and `config.toml` accessible by their owner only; if they did not exist they are the shipped templates. -/
theorem C42_success (env : WizEnv) (w : World) (hok : (wizardRun env w).1 = .ok ()) :
    (∃ f, (wizardRun env w).2.fs "/etc/ruroco/commands.toml".toList = some f ∧ f.mode = 0o600 ∧ (w.fs "/etc/ruroco/commands.toml".toList = none → f.data = env.commands)) ∧
    (∃ f, (wizardRun env w).2.fs "/etc/ruroco/config.toml".toList = some f ∧ f.mode = 0o600 ∧ (w.fs "/etc/ruroco/config.toml".toList = none → f.data = env.config)) := by
  have h := wizardRun_spec env w
  obtain ⟨f, h1, h2, h3⟩ := h.commands hok
  obtain ⟨g, g1, g2, g3⟩ := h.config hok
  exact ⟨⟨f, h1, h2, fun hn => (h3 hn).1⟩, ⟨g, g1, g2, fun hn => (g3 hn).1⟩⟩

theorem step_ok {m : Act Unit} {k : Act Unit} {w : World} (h : ((m >>= fun _ => k) w).1 = .ok ()) : (m w).1 = .ok () ∧ (k (m w).2).1 = .ok () := by
  have h' : wp (m >>= fun _ => k) w (fun o _ => o = .ok ()) := h
  rw [wp_bind] at h'
  unfold wp at h'
  revert h'
  cases hm : (m w).1 with
  | ok u => exact fun h => ⟨rfl, h⟩
  | err e => exact nofun
  | crash => exact nofun

/-- **C42**: the wizard reports success only if the user exists and systemd has reloaded, enabled and started the services. -/
theorem C42_success_means_started (env : WizEnv) (w : World) (hok : (wizardRun env w).1 = .ok ()) :
    (env.useradd = some 0 ∨ env.useradd = some 9) ∧ env.reload = true ∧ env.enable = true ∧ env.start = true := by
  unfold wizardRun at hok
  obtain ⟨h1, hok⟩ := step_ok hok
  obtain ⟨-, hok⟩ := step_ok hok
  obtain ⟨-, hok⟩ := step_ok hok
  obtain ⟨-, hok⟩ := step_ok hok
  obtain ⟨-, hok⟩ := step_ok hok
  obtain ⟨-, hok⟩ := step_ok hok
  obtain ⟨-, hok⟩ := step_ok hok
  obtain ⟨h2, hok⟩ := step_ok hok
  obtain ⟨h3, h4⟩ := step_ok hok
  have sys : ∀ {args b w}, (systemctl args b w).1 = .ok () → b = true := by
    intro args b w h
    cases b
    · cases h
    · rfl
  refine ⟨?_, sys h2, sys h3, sys h4⟩
  unfold createRurocoUser at h1
  replace h1 := (step_ok h1).2
  split at h1
  · exact .inr ‹_›
  · split at h1
    · exact .inl ‹_›
    · cases h1

def exWizEnv : WizEnv := ⟨[1], [2], [3], [4, 4], [5, 5], some 9, true, true, true, { exists_ := fun _ => true, isDir := fun _ => true, home := none, draws := ["abc".toList] }, exUpdEnv⟩

def exBlank : World := { fs := fun _ => none, pend := fun _ => [], clock := List.replicate 9 (some 5), oracle := [], umask := 0o022, cur := [], log := [] }
def exOps (oracle : List Choice) : Env := ⟨oracle, List.replicate 9 (some 5)⟩

/-- A fresh install followed by a second run succeeds. -/
example : (wizardRun exWizEnv exBlank).1 = .ok () ∧ content (wizardRuns [(exWizEnv, exOps []), (exWizEnv, exOps [])] exBlank) CONFIG_TOML_PATH = some [4, 4] ∧
    (wizardRuns [(exWizEnv, exOps []), (exWizEnv, exOps [])] exBlank).log.all (fun e => match e with | .statFailed _ => false | _ => true) = true := by decide +kernel

/-- An edited configuration. -/
def exConfigured (owner : Owner) (mode : Nat) : World :=
  { exBlank with fs := fun p => if p = CONFIG_TOML_PATH then some ⟨[8, 8, 8], mode, true, owner⟩ else none }

example : content (wizardRuns [(exWizEnv, exOps []), (exWizEnv, exOps [.ok, .ok, .ok, .crash 0]), (exWizEnv, exOps [])] (exConfigured .creator 0o644)) CONFIG_TOML_PATH = some [8, 8, 8] := by decide +kernel

/-- Number of system calls of a run up to the check of `config.toml`: the attempt to write (2), the update of two binaries not there before (17), then three unit files. -/
def exBefore : List Choice := List.replicate 25 .ok

/-- **C42 is false** if looking for `config.toml` fails (`Path::exists` takes every error for absence): the operator's configuration is replaced by the template, and the run reports success. -/
theorem C42_failed_stat_overwrites : ∃ (env : WizEnv) (w : World) (f : File), w.fs CONFIG_TOML_PATH = some f ∧ f.data ≠ env.config ∧ (wizardRun env w).1 = .ok () ∧
    content (wizardRun env w).2 CONFIG_TOML_PATH = some env.config :=
  ⟨exWizEnv, { exConfigured .creator 0o600 with oracle := exBefore ++ [.err 0] }, ⟨[8, 8, 8], 0o600, true, .creator⟩, by decide +kernel, by decide, by decide +kernel, by decide +kernel⟩

/-- **C42 is false** for a fresh install interrupted while the template is written: the file is not written atomically, and the next (successful) run takes the torn template for the operator's
configuration. -/
theorem C42_torn_template_kept : ∃ (r1 r2 : WizEnv × Env) (w : World), w.fs CONFIG_TOML_PATH = none ∧ r1.1.config = r2.1.config ∧ (wizardRun r1.1 (w.withEnv r1.2 [])).1 = .crash ∧
    (wizardRun r2.1 ((wizardRuns [r1] w).withEnv r2.2 [])).1 = .ok () ∧ content (wizardRuns [r1, r2] w) CONFIG_TOML_PATH ≠ some r2.1.config :=
  ⟨(exWizEnv, exOps (exBefore ++ [.ok, .ok, .crash 1])), (exWizEnv, exOps []), exBlank, rfl, rfl, by decide +kernel, by decide +kernel, by decide +kernel⟩

/-! ## C58 -/

instance (w : World) (p : Path) (user group : List Char) : Decidable (ReadableBy w p user group) := by
  unfold ReadableBy
  cases w.fs p with
  | none => exact isFalse (by rintro ⟨_, h, _⟩; cases h)
  | some f => exact decidable_of_iff _ ⟨fun h => ⟨f, rfl, h⟩, by rintro ⟨_, h, h'⟩; cases h; exact h'⟩

/-- **C58 is false** on a fresh install: after any successful run on a machine without `config.toml`, the server's user cannot read it. -/
theorem C58_fresh_install_unreadable (env : WizEnv) (w : World) (hn : w.fs "/etc/ruroco/config.toml".toList = none) (hok : (wizardRun env w).1 = .ok ()) :
    ¬ ReadableBy (wizardRun env w).2 "/etc/ruroco/config.toml".toList "ruroco".toList "ruroco".toList := by
  obtain ⟨f, hf, hm, hd⟩ := (wizardRun_spec env w).config hok
  rintro ⟨f', hf', h⟩
  have : f' = f := by
    have := hf'.symm.trans hf
    cases this
    rfl
  subst this
  have ho := (hd hn).2
  rw [ho, hm] at h
  revert h
  decide

example : exBlank.fs "/etc/ruroco/config.toml".toList = none ∧ (wizardRun exWizEnv exBlank).1 = .ok () := by decide +kernel

/-- **C58 is false** also where it held before: a `config.toml` of root with read permission for the server's group loses it. -/
theorem C58_run_revokes_access : ∃ (env : WizEnv) (w : World), ReadableBy w "/etc/ruroco/config.toml".toList "ruroco".toList "ruroco".toList ∧ (wizardRun env w).1 = .ok () ∧
    ¬ ReadableBy (wizardRun env w).2 "/etc/ruroco/config.toml".toList "ruroco".toList "ruroco".toList :=
  ⟨exWizEnv, exConfigured ⟨"root".toList, "ruroco".toList⟩ 0o640, by decide +kernel, by decide +kernel, by decide +kernel⟩

/-- **C58**, proved part: if `config.toml` exists, belongs to the server's user, and looking for it does not fail, the server can read it after a successful run. Missing: all other states, for which it is false. -/
theorem C58_readable_partial (env : WizEnv) (w : World) (f : File) (hf : w.fs "/etc/ruroco/config.toml".toList = some f) (ho : f.owner.user = "ruroco".toList)
    (hstat : .statFailed "/etc/ruroco/config.toml".toList ∉ (wizardRun env w).2.log) (hok : (wizardRun env w).1 = .ok ()) :
    ReadableBy (wizardRun env w).2 "/etc/ruroco/config.toml".toList "ruroco".toList "ruroco".toList := by
  have h := wizardRun_spec env w
  obtain ⟨g, hg, hm, _⟩ := h.config hok
  obtain ⟨g', hg', _, hgo⟩ := h.keep _ (Or.inl rfl) hstat f hf
  have : g' = g := by
    have := hg'.symm.trans hg
    cases this
    rfl
  subst this
  exact ⟨g', hg, Or.inl ⟨by rw [hgo, ho], by rw [hm]; decide⟩⟩

/-- **C58**, exactly: after a successful run in which looking for `config.toml` did not fail, the server's user can read the file if and only if the file was there before and belonged to that
user. -/
theorem C58_readable_iff (env : WizEnv) (w : World) (hstat : .statFailed "/etc/ruroco/config.toml".toList ∉ (wizardRun env w).2.log) (hok : (wizardRun env w).1 = .ok ()) :
    ReadableBy (wizardRun env w).2 "/etc/ruroco/config.toml".toList "ruroco".toList "ruroco".toList ↔
      ∃ f, w.fs "/etc/ruroco/config.toml".toList = some f ∧ f.owner.user = "ruroco".toList := by
  constructor
  · intro hr
    cases hf : w.fs "/etc/ruroco/config.toml".toList with
    | none => exact absurd hr (C58_fresh_install_unreadable env w hf hok)
    | some f =>
      refine ⟨f, rfl, ?_⟩
      have h := wizardRun_spec env w
      obtain ⟨g, hg, hm, _⟩ := h.config hok
      obtain ⟨g', hg', _, hgo⟩ := h.keep _ (Or.inl rfl) hstat f hf
      obtain ⟨f', hf', hr⟩ := hr
      have e1 : g' = g := Option.some.inj (hg'.symm.trans hg)
      have e2 : f' = g := Option.some.inj (hf'.symm.trans hg)
      subst e1 e2
      rw [hm] at hr
      rcases hr with hr | hr | hr
      · rw [← hgo]
        exact hr.1
      · exact absurd rfl hr.2.2
      · exact absurd rfl hr.2.2
  · rintro ⟨f, hf, ho⟩
    exact C58_readable_partial env w f hf ho hstat hok

example : ReadableBy (wizardRun exWizEnv (exConfigured ⟨"ruroco".toList, "ruroco".toList⟩ 0o600)).2 CONFIG_TOML_PATH "ruroco".toList "ruroco".toList := by decide +kernel

end Ruroco
