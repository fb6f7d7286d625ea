import Verif.Props.Wizard
import Verif.Props.Units
import Verif.Props.Started

/-!
# C42, exactly: when does a successful run of the wizard lose the operator's configuration?
-/

namespace Ruroco

open Spec

/-- No failed look at `p`. -/
def Seen (p : Path) (e : Event) : Prop := e ≠ .statFailed p

section

variable {p : Path}

private theorem hR : Pre (Logs (Seen p)) := logs_pre _

theorem seen_writeData (q : Path) (data : List Byte) : Always (Logs (Seen p)) (writeData q data) :=
  Always.bind hR (logs_openTrunc nofun) (fun _ => logs_of_within (F := fun _ => True) (within_writeAll trivial nofun))

theorem seen_stat (q : Path) : Always (Logs (Seen p)) (stat q) := by
  unfold stat
  refine Always.bind hR (logs_call nofun (fun _ => rfl)) (fun _ => Always.bind hR (Always.peek hR q) (fun f => ?_))
  cases f with
  | none => exact Always.throw hR _
  | some f => exact Always.pure hR _

theorem seen_setPermissions (q : Path) (m : Nat) : Always (Logs (Seen p)) (setPermissions q m) :=
  Always.bind hR (seen_stat q) (fun _ => logs_chmod nofun)

theorem seen_createUser (c : Option Nat) : Always (Logs (Seen p)) (createRurocoUser c) := by
  unfold createRurocoUser
  refine Always.bind hR (logs_note nofun) (fun _ => ?_)
  split
  · exact Always.pure hR _
  · split
    · exact Always.pure hR _
    · exact Always.throw hR _

theorem seen_systemctl (args : List (List Char)) (b : Bool) : Always (Logs (Seen p)) (systemctl args b) := by
  unfold systemctl
  refine Always.bind hR (logs_note nofun) (fun _ => ?_)
  split
  · exact Always.pure hR _
  · exact Always.throw hR _

theorem seen_pathExists {q : Path} (h : q ≠ p) : Always (Logs (Seen p)) (pathExists q) :=
  logs_pathExists nofun (fun he => h (by injection he))

theorem seen_initFile {q : Path} (h : q ≠ p) (t : List Byte) : Always (Logs (Seen p)) (initFile q t) := by
  unfold initFile
  refine Always.bind hR (seen_pathExists h) (fun b => ?_)
  split
  · exact Always.bind hR (seen_writeData q t) (fun _ => seen_setPermissions q _)
  · exact seen_setPermissions q _

theorem seen_newTempFile (dir : Path) (draws : List (List Char)) : Always (Logs (Seen p)) (newTempFile dir draws) := by
  induction draws with
  | nil => exact Always.throw hR _
  | cons d ds ih =>
    rw [newTempFile.eq_2]
    refine Always.bind hR (Always.peek hR _) (fun f => ?_)
    cases f with
    | some f => exact ih
    | none => exact Always.bind hR (logs_call nofun (fun w => rfl)) (fun _ => Always.pure hR _)

theorem seen_checkIfWritable (D : DirEnv) (q : Path) : Always (Logs (Seen p)) (checkIfWritable D q) := by
  unfold checkIfWritable
  refine Always.bind hR (Always.attempt (seen_newTempFile q D.draws)) (fun r => ?_)
  cases r with
  | ok t => exact Always.bind hR (logs_removeIgnoring nofun nofun) (fun _ => Always.pure hR _)
  | error e => exact Always.pure hR _

theorem seen_writeAtomicWithMode (q : Path) (b : List Byte) (m : Nat) : Always (Logs (Seen p)) (writeAtomicWithMode q b (some m)) := by
  unfold writeAtomicWithMode
  refine Always.bind hR logs_nowNanos (fun t => ?_)
  refine Always.bind hR (logs_openTrunc nofun) (fun _ => ?_)
  refine Always.bind hR (logs_of_within (F := fun _ => True) (within_writeAll trivial nofun)) (fun _ => ?_)
  refine Always.bind hR (logs_of_within (F := fun _ => True) (within_fsync trivial nofun)) (fun _ => ?_)
  refine Always.bind hR (seen_stat _) (fun _ => ?_)
  refine Always.bind hR (logs_chmod nofun) (fun _ => ?_)
  refine Always.bind hR (logs_of_within (F := fun _ => True) (within_rename trivial trivial nofun)) (fun _ => ?_)
  exact logs_of_within (F := fun _ => True) (within_fsyncDir nofun nofun)

theorem seen_copyFile (a b : Path) : Always (Logs (Seen p)) (copyFile a b) := by
  unfold copyFile
  refine Always.bind hR (logs_call nofun (fun _ => rfl)) (fun _ => Always.bind hR (Always.peek hR _) (fun f => ?_))
  cases f with
  | none => exact Always.throw hR _
  | some f =>
    exact Always.bind hR (logs_call nofun (fun _ => rfl)) (fun _ => Always.bind hR (logs_chmod nofun) (fun _ =>
      logs_of_within (F := fun _ => True) (within_writeAll trivial nofun)))

theorem seen_chown (q : Path) (a b : List Char) : Always (Logs (Seen p)) (chown q a b) := by
  unfold chown
  refine Always.bind hR (Always.peek hR _) (fun f => ?_)
  cases f with
  | none => exact Always.throw hR _
  | some f => exact logs_call nofun (fun _ => rfl)

theorem seen_saveBin {dir : Path} (hd : ¬ (dir ++ ['/']) <+: p) (names : Bool) (v : Verified) : Always (Logs (Seen p)) (saveBin dir names v) := by
  have hne : binFile dir v.name ≠ p := by
    rintro rfl
    exact hd ⟨v.name, by unfold binFile; simp⟩
  unfold saveBin
  refine Always.bind hR (seen_pathExists hne) (fun b => ?_)
  have rest : ∀ o : Option (List Char), Always (Logs (Seen p)) (do
      writeAtomicWithMode (binFile dir v.name) v.bytes (some v.mode)
      match o with
      | some ug => changeOwnership (binFile dir v.name) ug ug names
      | none => pure ()) := by
    intro o
    refine Always.bind hR (seen_writeAtomicWithMode _ _ _) (fun _ => ?_)
    cases o with
    | none => exact Always.pure hR _
    | some ug =>
      show Always (Logs (Seen p)) (changeOwnership (binFile dir v.name) ug ug names)
      unfold changeOwnership
      split
      · exact Always.throw hR _
      · exact seen_chown _ _ _
  have back : Always (Logs (Seen p)) (backupBin (binFile dir v.name)) := by
    unfold backupBin
    refine Always.bind hR (Always.attempt (seen_copyFile _ _)) (fun r => ?_)
    cases r with
    | ok _ => exact Always.pure hR _
    | error e => exact Always.bind hR (logs_note nofun) (fun _ => Always.throw hR _)
  generalize v.owner = o
  cases b with
  | true =>
    cases o with
    | none => exact Always.bind hR back (fun _ => rest none)
    | some ug => exact Always.bind hR back (fun _ => rest (some ug))
  | false =>
    cases o with
    | none => exact rest none
    | some ug => exact rest (some ug)

theorem seen_removeFile (q : Path) : Always (Logs (Seen p)) (removeFile q) := by
  unfold removeFile
  refine Always.bind hR (Always.peek hR _) (fun f => ?_)
  cases f with
  | none => exact Always.throw hR _
  | some f => exact logs_call nofun (fun _ => rfl)

theorem seen_rollbackAll {dir : Path} (hd : ¬ (dir ++ ['/']) <+: p) (names : List (List Char)) : Always (Logs (Seen p)) (rollbackAll dir names) := by
  induction names with
  | nil => exact Always.pure hR _
  | cons n rest ih =>
    have hne : binFile dir n ≠ p := by
      rintro rfl
      exact hd ⟨n, by unfold binFile; simp⟩
    have hno : oldPath (binFile dir n) ≠ p := by
      rintro rfl
      exact hd ⟨n ++ ".old".toList, by unfold oldPath binFile; simp⟩
    unfold rollbackAll
    refine Always.bind hR (Always.attempt ?_) (fun r => ?_)
    · unfold rollbackBin
      refine Always.bind hR (seen_pathExists hno) (fun b => ?_)
      split
      · exact logs_of_within (F := fun _ => True) (within_rename trivial trivial nofun)
      · refine Always.bind hR (seen_pathExists hne) (fun b => ?_)
        split
        · exact seen_removeFile _
        · exact Always.pure hR _
    · cases r with
      | ok _ => exact ih
      | error _ => exact Always.bind hR (logs_note nofun) (fun _ => ih)

theorem seen_swapAll {dir : Path} (hd : ¬ (dir ++ ['/']) <+: p) (names : Bool) (applied : List (List Char)) (vs : List Verified) : Always (Logs (Seen p)) (swapAll dir names applied vs) := by
  induction vs generalizing applied with
  | nil => exact Always.pure hR _
  | cons v vs ih =>
    unfold swapAll
    refine Always.bind hR (Always.attempt (seen_saveBin hd names v)) (fun r => ?_)
    cases r with
    | ok _ => exact ih _
    | error e => exact Always.bind hR (seen_rollbackAll hd _) (fun _ => Always.throw hR _)

theorem seen_wizardUpdate (hd : ¬ "/usr/local/bin/".toList <+: p) (env : WizEnv) : Always (Logs (Seen p)) (wizardUpdate env) := by
  have hv : Gives (fun d => d = SERVER_BIN_DIR) (validateDirPath env.dirs SERVER_BIN_DIR) := by
    unfold validateDirPath
    split
    · exact Gives.bind (fun _ => Gives.pure rfl)
    · split
      · exact Gives.throw
      · refine Gives.bind (fun b => ?_)
        split
        · exact Gives.throw
        · exact Gives.pure rfl
  refine always_bind_of (K := fun u : Updater => u.binPath = SERVER_BIN_DIR) hR (Always.bind hR ?_ (fun _ => Always.pure hR _)) (Gives.bind_of hv (fun d hd => Gives.pure hd)) ?_
  · show Always (Logs (Seen p)) (validateDirPath env.dirs SERVER_BIN_DIR)
    unfold validateDirPath
    split
    · exact Always.bind hR (logs_call nofun (fun _ => rfl)) (fun _ => Always.pure hR _)
    · split
      · exact Always.throw hR _
      · refine Always.bind hR (seen_checkIfWritable _ _) (fun b => ?_)
        split
        · exact Always.throw hR _
        · exact Always.pure hR _
  · intro u hu
    unfold Updater.update
    refine Always.bind hR (Always.ofExcept hR _) (fun r => ?_)
    cases r with
    | none => exact Always.pure hR _
    | some vs => exact seen_swapAll (by rw [hu]; exact hd) _ _ _

/-- `Path::exists`: the answer is right, or it is "no" and noted as failed. -/
theorem pathExists_exact (p : Path) (w : World) : wp (pathExists p) w (fun o w' => w'.fs = w.fs ∧
    ((o = .ok (w.fs p).isSome ∧ w'.log = w.log ++ [.file .stat p]) ∨ (o = .ok false ∧ w'.log = w.log ++ [.file .stat p, .statFailed p]) ∨ o = .crash)) := by
  unfold pathExists
  rw [wp_bind, wp_attempt]
  refine wp_atomicCall _ _ _ _ (fun o => ?_) (fun o => ?_) (fun o => ⟨rfl, .inr (.inr rfl)⟩) (fun o => ⟨rfl, .inr (.inr rfl)⟩)
  · exact ⟨rfl, .inl ⟨rfl, rfl⟩⟩
  · refine ⟨rfl, .inr (.inl ⟨rfl, ?_⟩)⟩
    show (w.log ++ [.file .stat p]) ++ [.statFailed p] = _
    simp

/-- `init_config_file` and `init_commands_file` when they succeed. -/
theorem initFile_exact {p : Path} {t : List Byte} {w w' : World} (h : initFile p t w = (.ok (), w')) (f : File) (hf : w.fs p = some f) :
    ∃ f', w'.fs p = some f' ∧ ((.statFailed p ∉ w'.log.drop w.log.length ∧ f'.data = f.data) ∨ (.statFailed p ∈ w'.log.drop w.log.length ∧ f'.data = t)) := by
  unfold initFile at h
  obtain ⟨b, w1, h1, h⟩ := act_bind_ok h
  have he := pathExists_exact p w
  unfold wp at he
  rw [h1] at he
  obtain ⟨hfs, he⟩ := he
  rcases he with ⟨hb, hl⟩ | ⟨hb, hl⟩ | hb
  · cases hb
    rw [hf] at h
    have hs := setPermissions_spec p 0o600 w1
    unfold wp at hs
    replace h : setPermissions p 0o600 w1 = (.ok (), w') := h
    obtain ⟨l, hl2, hP⟩ := seen_setPermissions (p := p) p 0o600 w1
    rw [h] at hs hl2
    obtain ⟨f', hf', hd, _⟩ := hs.2.1 f (by rw [hfs]; exact hf)
    refine ⟨f', hf', .inl ⟨?_, hd⟩⟩
    simp only at hl2
    rw [hl2, hl, List.append_assoc, List.drop_left]
    intro hm
    rcases List.mem_append.1 hm with hm | hm
    · simp at hm
    · exact hP _ hm rfl
  · cases hb
    replace h : (writeData p t >>= fun _ => setPermissions p 0o600) w1 = (.ok (), w') := h
    obtain ⟨_, w2, h2, h3⟩ := act_bind_ok h
    have hd := writeData_spec p t w1
    have hs := setPermissions_spec p 0o600 w2
    unfold wp at hd hs
    rw [h2] at hd
    rw [h3] at hs
    obtain ⟨g, hg, hgd, _⟩ := hd.2 rfl
    obtain ⟨f', hf', hfd, _⟩ := hs.2.1 g hg
    refine ⟨f', hf', .inr ⟨?_, hfd.trans hgd⟩⟩
    obtain ⟨l, hl3⟩ := hd.1.log.trans hs.1.log
    simp only at hl3
    rw [← hl3, hl, List.append_assoc, List.drop_left]
    simp
  · cases hb

/-- Only the middle of three stretches may note a failed look at `p`. -/
theorem seen_middle {w a b w' : World} (h1 : Logs (Seen p) w a) (h2 : a.log <+: b.log) (h3 : Logs (Seen p) b w') :
    .statFailed p ∈ w'.log.drop w.log.length ↔ .statFailed p ∈ b.log.drop a.log.length := by
  obtain ⟨l1, e1, s1⟩ := h1
  obtain ⟨l2, e2⟩ := h2
  obtain ⟨l3, e3, s3⟩ := h3
  rw [e3, ← e2, e1, List.append_assoc, List.append_assoc, List.drop_left, List.drop_left]
  simp only [List.mem_append]
  exact ⟨fun h => h.elim (fun h => absurd rfl (s1 _ h)) (fun h => h.elim id (fun h => absurd rfl (s3 _ h))), fun h => .inr (.inl h)⟩

/-- A stretch of the wizard that does not touch `p` and notes no failed look at it. -/
def Apart (p : Path) (m : Act Unit) : Prop := ∀ w, (m w).2.fs p = w.fs p ∧ Logs (Seen p) w (m w).2

theorem Apart.log {m : Act Unit} (h : Apart p m) (w : World) : w.log <+: (m w).2.log := by
  obtain ⟨l, hl, _⟩ := (h w).2
  exact ⟨l, hl.symm⟩

theorem Apart.bind {m k : Act Unit} (hm : Apart p m) (hk : Apart p k) : Apart p (m >>= fun _ => k) := by
  intro w
  refine ⟨?_, Always.bind hR (fun w => (hm w).2) (fun _ w => (hk w).2) w⟩
  show (Act.bind m (fun _ => k) w).2.fs p = _
  unfold Act.bind
  have h1 := (hm w).1
  rcases h : m w with ⟨o, w1⟩
  rw [h] at h1
  cases o with
  | ok a => exact (hk w1).1.trans h1
  | err e => exact h1
  | crash => exact h1

theorem apart_writeData {q : Path} (h : p ≠ q) (data : List Byte) : Apart p (writeData q data) :=
  fun w => ⟨(writeData_spec q data w).1.fs p h, seen_writeData q data w⟩

theorem apart_initFile {q : Path} (h : p ≠ q) (t : List Byte) : Apart p (initFile q t) :=
  fun w => ⟨(initFile_spec q t w).touch.fs p h, seen_initFile (Ne.symm h) t w⟩

theorem apart_createUser (c : Option Nat) : Apart p (createRurocoUser c) := by
  refine fun w => ⟨?_, seen_createUser c w⟩
  show wp (createRurocoUser c) w (fun _ w' => w'.fs p = w.fs p)
  unfold createRurocoUser
  rw [wp_bind, wp_note]
  simp only
  split
  · rfl
  · split <;> rfl

theorem apart_systemctl (args : List (List Char)) (b : Bool) : Apart p (systemctl args b) := by
  refine fun w => ⟨?_, seen_systemctl args b w⟩
  show wp (systemctl args b) w (fun _ w' => w'.fs p = w.fs p)
  unfold systemctl
  rw [wp_bind, wp_note]
  cases b <;> rfl

theorem apart_wizardUpdate (hd : ¬ "/usr/local/bin/".toList <+: p) (env : WizEnv) : Apart p (wizardUpdate env) :=
  fun w => ⟨(wizardUpdate_spec env w).2.1 p hd, seen_wizardUpdate hd env w⟩

/-- The three unit files after what comes before. -/
theorem apart_units {env : WizEnv} (hp : Operators p) : Apart p (do
    createRurocoUser env.useradd
    wizardUpdate env
    writeData RUROCO_SERVICE_FILE_PATH env.ruroco
    writeData COMMANDER_SERVICE_FILE_PATH env.commander
    writeData SOCKET_FILE_PATH env.socket) := by
  refine Apart.bind (apart_createUser _) (Apart.bind (apart_wizardUpdate ?_ env) (Apart.bind (apart_writeData ?_ _) (Apart.bind (apart_writeData ?_ _) (apart_writeData ?_ _)))) <;>
    rcases hp with rfl | rfl <;> decide

theorem apart_end {env : WizEnv} : Apart p (do
    systemctl ["daemon-reload".toList] env.reload
    systemctl ("enable".toList :: units) env.enable
    systemctl ("start".toList :: units) env.start) :=
  Apart.bind (apart_systemctl _ _) (Apart.bind (apart_systemctl _ _) (apart_systemctl _ _))

/-- A successful run, cut before, between and after the two files of the operator. -/
theorem wizardRun_cut {env : WizEnv} {w w' : World} (h : wizardRun env w = (.ok (), w')) : ∃ w1 w2 w3,
    ((do
      createRurocoUser env.useradd
      wizardUpdate env
      writeData RUROCO_SERVICE_FILE_PATH env.ruroco
      writeData COMMANDER_SERVICE_FILE_PATH env.commander
      writeData SOCKET_FILE_PATH env.socket) : Act Unit) w = (.ok (), w1) ∧
    initFile CONFIG_TOML_PATH env.config w1 = (.ok (), w2) ∧ initFile COMMANDS_TOML_PATH env.commands w2 = (.ok (), w3) ∧
    ((do
      systemctl ["daemon-reload".toList] env.reload
      systemctl ("enable".toList :: units) env.enable
      systemctl ("start".toList :: units) env.start) : Act Unit) w3 = (.ok (), w') := by
  unfold wizardRun at h
  obtain ⟨_, a, h1, h⟩ := act_bind_ok h
  obtain ⟨_, b, h2, h⟩ := act_bind_ok h
  obtain ⟨_, c, h3, h⟩ := act_bind_ok h
  obtain ⟨_, d, h4, h⟩ := act_bind_ok h
  obtain ⟨_, e, h5, h⟩ := act_bind_ok h
  obtain ⟨_, x, h6, h⟩ := act_bind_ok h
  obtain ⟨_, y, h7, h⟩ := act_bind_ok h
  refine ⟨e, x, y, ?_, h6, h7, h⟩
  have step : ∀ {m : Act Unit} {k : Act Unit} {u v : World}, m u = (.ok (), v) → (m >>= fun _ => k) u = k v := by
    intro m k u v hm
    show Act.bind m (fun _ => k) u = _
    unfold Act.bind
    rw [hm]
  rw [step h1, step h2, step h3, step h4, h5]

/-- **C42, exactly.** A run of the wizard that reports success has kept the bytes of the operator's `config.toml` if and only if looking for it did not fail in this run; otherwise the file now
holds the shipped template. The same for `commands.toml`. (If the file holds the template anyway, there is nothing to lose.) -/
theorem C42_kept_iff (env : WizEnv) (w w' : World) (h : wizardRun env w = (.ok (), w')) (p : Path) (template : List Byte)
    (hp : (p = "/etc/ruroco/config.toml".toList ∧ template = env.config) ∨ (p = "/etc/ruroco/commands.toml".toList ∧ template = env.commands))
    (f : File) (hf : w.fs p = some f) :
    ∃ f', w'.fs p = some f' ∧ (.statFailed p ∉ w'.log.drop w.log.length → f'.data = f.data) ∧ (.statFailed p ∈ w'.log.drop w.log.length → f'.data = template) ∧
      (f.data ≠ template → (f'.data = f.data ↔ .statFailed p ∉ w'.log.drop w.log.length)) := by
  obtain ⟨w1, w2, w3, h1, h2, h3, h4⟩ := wizardRun_cut h
  -- one of the two files, between `a` and `b`
  have main : ∀ a b : World, a.fs p = w.fs p → Logs (Seen p) w a → initFile p template a = (.ok (), b) → w'.fs p = b.fs p → Logs (Seen p) b w' →
      ∃ f', w'.fs p = some f' ∧ (.statFailed p ∉ w'.log.drop w.log.length → f'.data = f.data) ∧ (.statFailed p ∈ w'.log.drop w.log.length → f'.data = template) ∧
        (f.data ≠ template → (f'.data = f.data ↔ .statFailed p ∉ w'.log.drop w.log.length)) := by
    intro a b ha la hi hb lb
    obtain ⟨f', hf', hc⟩ := initFile_exact hi f (ha.trans hf)
    have hlog : a.log <+: b.log := by
      have := (initFile_spec p template a).touch.log
      rw [hi] at this
      exact this
    rw [seen_middle la hlog lb]
    refine ⟨f', hb.trans hf', ?_⟩
    rcases hc with ⟨hn, hd⟩ | ⟨hm, hd⟩
    · exact ⟨fun _ => hd, fun hm => absurd hm hn, fun _ => ⟨fun _ => hn, fun _ => hd⟩⟩
    · exact ⟨fun hn => absurd hm hn, fun _ => hd, fun hne => ⟨fun he => absurd (he.symm.trans hd) hne, fun hn => absurd hm hn⟩⟩
  have of : ∀ {q : Path} {m : Act Unit} {u v : World} {o : Out Unit}, Apart q m → m u = (o, v) → v.fs q = u.fs q ∧ Logs (Seen q) u v := by
    intro q m u v o hm he
    have := hm u
    rw [he] at this
    exact this
  rcases hp with ⟨rfl, rfl⟩ | ⟨rfl, rfl⟩
  · obtain ⟨f1, l1⟩ := of (apart_units (.inl rfl)) h1
    obtain ⟨f3, l3⟩ := of (apart_initFile (p := CONFIG_TOML_PATH) (by decide) _) h3
    obtain ⟨f4, l4⟩ := of apart_end h4
    exact main w1 w2 f1 l1 h2 (f4.trans f3) (hR.trans l3 l4)
  · obtain ⟨f1, l1⟩ := of (apart_units (.inr rfl)) h1
    obtain ⟨f2, l2⟩ := of (apart_initFile (p := COMMANDS_TOML_PATH) (by decide) _) h2
    obtain ⟨f4, l4⟩ := of apart_end h4
    exact main w2 w3 (f2.trans f1) (hR.trans l1 l2) h3 f4 l4

/-- Both cases occur: with an edited configuration, a run in which nothing fails keeps it, one in which looking for it fails does not. -/
example : (wizardRun exWizEnv (exConfigured .creator 0o600)).1 = .ok () ∧ content (wizardRun exWizEnv (exConfigured .creator 0o600)).2 CONFIG_TOML_PATH = some [8, 8, 8] ∧
    (wizardRun exWizEnv { exConfigured .creator 0o600 with oracle := exBefore ++ [.err 0] }).1 = .ok () ∧
    content (wizardRun exWizEnv { exConfigured .creator 0o600 with oracle := exBefore ++ [.err 0] }).2 CONFIG_TOML_PATH = some [4, 4] := by decide +kernel

end
end Ruroco
