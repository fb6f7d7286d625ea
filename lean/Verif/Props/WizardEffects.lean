import Verif.Spec.Wizard
import Verif.Props.Wizard
import Verif.Props.CommanderEffects

/-!
# C88: what an update and the wizard touch, and when the wizard starts the services
-/

namespace Ruroco

open Spec

section

variable {F M : Path → Prop} {P : List (List String)}

local notation "R" => Within F (InstallMay F M P)

theorem inst_stat {p : Path} (hp : F p) : Always R (stat p) := by
  have hR := within_pre F (InstallMay F M P)
  unfold stat
  refine Always.bind hR (within_look (.file _ _ hp)) (fun _ => Always.bind hR (Always.peek hR _) (fun f => ?_))
  cases f with
  | none => exact Always.throw hR _
  | some f => exact Always.pure hR _

theorem inst_pathExists {p : Path} (hp : F p) : Always R (pathExists p) := by
  have hR := within_pre F (InstallMay F M P)
  unfold pathExists
  refine Always.bind hR (Always.attempt (within_look (.file _ _ hp))) (fun r => ?_)
  cases r with
  | ok _ => exact Always.bind hR (Always.peek hR _) (fun _ => Always.pure hR _)
  | error _ => exact Always.bind hR (within_note (.statFailed _ hp)) (fun _ => Always.pure hR _)

theorem inst_writeAtomic {p : Path} {bs : List Byte} {m : Option Nat} (hp : F p) (ht : ∀ t : U128, F (tmpPath p t)) : Always R (writeAtomicWithMode p bs m) := by
  have hR := within_pre F (InstallMay F M P)
  unfold writeAtomicWithMode
  refine Always.bind hR within_nowNanos (fun t => ?_)
  refine Always.bind hR (within_openTrunc (ht t) (.file _ _ (ht t))) (fun _ => ?_)
  refine Always.bind hR (within_writeAll (ht t) (.file _ _ (ht t))) (fun _ => ?_)
  refine Always.bind hR (within_fsync (ht t) (.file _ _ (ht t))) (fun _ => ?_)
  have fin : Always R (do rename (tmpPath p t) p; fsyncDir p) :=
    Always.bind hR (within_rename (ht t) hp (.file _ _ hp)) (fun _ => within_fsyncDir (.file _ _ hp) (.dirSyncFailed _ hp))
  cases m with
  | none => exact fin
  | some m => exact Always.bind hR (inst_stat (ht t)) (fun _ => Always.bind hR (within_chmod (ht t) (.file _ _ (ht t))) (fun _ => fin))

theorem inst_copyFile {a b : Path} (ha : F a) (hb : F b) : Always R (copyFile a b) := by
  have hR := within_pre F (InstallMay F M P)
  unfold copyFile
  refine Always.bind hR (within_look (.file _ _ ha)) (fun _ => Always.bind hR (Always.peek hR _) (fun f => ?_))
  cases f with
  | none => exact Always.throw hR _
  | some f =>
    refine Always.bind hR (within_call (.file _ _ hb) (fun _ => rfl) (fun w q hq => by simp [World.setEntry, ne_of_not hb hq])) (fun _ => ?_)
    exact Always.bind hR (within_chmod hb (.file _ _ hb)) (fun _ => within_writeAll hb (.file _ _ hb))

/-- The files belonging to one binary. -/
def Mine (F : Path → Prop) (t : Path) : Prop := F t ∧ F (oldPath t) ∧ ∀ n : U128, F (tmpPath t n)

theorem inst_saveBin {dir : Path} {names : Bool} {v : Verified} (h : Mine F (binFile dir v.name)) : Always R (saveBin dir names v) := by
  have hR := within_pre F (InstallMay F M P)
  unfold saveBin backupBin
  have fin : Always R (do writeAtomicWithMode (binFile dir v.name) v.bytes (some v.mode); match v.owner with | some ug => changeOwnership (binFile dir v.name) ug ug names | none => pure ()) := by
    refine Always.bind hR (inst_writeAtomic h.1 h.2.2) (fun _ => ?_)
    cases v.owner with
    | none => exact Always.pure hR _
    | some ug =>
      show Always _ (changeOwnership _ _ _ _)
      unfold changeOwnership
      split
      · exact Always.throw hR _
      · exact within_chown h.1 (.file _ _ h.1)
  refine Always.bind hR (inst_pathExists h.1) (fun b => ?_)
  cases b with
  | false => exact fin
  | true =>
    refine Always.bind hR (Always.bind hR (Always.attempt (inst_copyFile h.1 h.2.1)) (fun r => ?_)) (fun _ => fin)
    cases r with
    | ok _ => exact Always.pure hR _
    | error _ => exact Always.bind hR (within_note (.copyFailed _ h.1)) (fun _ => Always.throw hR _)

theorem inst_rollbackBin {dir : Path} {name : List Char} (h : Mine F (binFile dir name)) : Always R (rollbackBin dir name) := by
  have hR := within_pre F (InstallMay F M P)
  unfold rollbackBin
  refine Always.bind hR (inst_pathExists h.2.1) (fun b => ?_)
  cases b with
  | true => exact within_rename h.2.1 h.1 (.file _ _ h.1)
  | false =>
    refine Always.bind hR (inst_pathExists h.1) (fun b => ?_)
    cases b with
    | false => exact Always.pure hR _
    | true =>
      show Always _ (removeFile _)
      unfold removeFile
      refine Always.bind hR (Always.peek hR _) (fun f => ?_)
      cases f with
      | none => exact Always.throw hR _
      | some f => exact within_call (.file _ _ h.1) (fun _ => rfl) (fun w q hq => by simp [World.setEntry, ne_of_not h.1 hq])

theorem inst_rollbackAll {dir : Path} {names : List (List Char)} (h : ∀ n ∈ names, Mine F (binFile dir n)) : Always R (rollbackAll dir names) := by
  have hR := within_pre F (InstallMay F M P)
  induction names with
  | nil => exact Always.pure hR _
  | cons n ns ih =>
    unfold rollbackAll
    refine Always.bind hR (Always.attempt (inst_rollbackBin (h n (by simp)))) (fun r => ?_)
    have fin := ih (fun n hn => h n (by simp [hn]))
    cases r with
    | ok _ => exact fin
    | error _ => exact Always.bind hR (within_note (.rollbackFailed _ (h n (by simp)).1)) (fun _ => fin)

theorem inst_swapAll {dir : Path} {names : Bool} {vs : List Verified} {applied : List (List Char)} (ha : ∀ n ∈ applied, Mine F (binFile dir n)) (h : ∀ v ∈ vs, Mine F (binFile dir v.name)) :
    Always R (swapAll dir names applied vs) := by
  have hR := within_pre F (InstallMay F M P)
  induction vs generalizing applied with
  | nil => exact Always.pure hR _
  | cons v vs ih =>
    unfold swapAll
    have ha' : ∀ n ∈ v.name :: applied, Mine F (binFile dir n) := by
      intro n hn
      rcases List.mem_cons.1 hn with rfl | hn
      · exact h v (by simp)
      · exact ha n hn
    refine Always.bind hR (Always.attempt (inst_saveBin (h v (by simp)))) (fun r => ?_)
    cases r with
    | ok _ => exact ih ha' (fun v hv => h v (by simp [hv]))
    | error _ => exact Always.bind hR (inst_rollbackAll ha') (fun _ => Always.throw hR _)

theorem inst_update {u : Updater} {env : UpdEnv} (h : ∀ t ∈ u.targets, Mine F (binFile u.binPath t.name)) : Always R (u.update env) := by
  have hR := within_pre F (InstallMay F M P)
  unfold Updater.update
  refine always_bind_of hR (Always.ofExcept hR _) gives_ofExcept (fun a ha => ?_)
  cases a with
  | none => exact Always.pure hR _
  | some vs =>
    obtain ⟨r, _, _, _, hl, hk⟩ := plan_some u env vs ha
    obtain ⟨h1, _, _⟩ := fetched_mem hl hk
    refine inst_swapAll (by simp) (fun v hv => ?_)
    obtain ⟨i, t, ht, hf⟩ := h1 v hv
    rw [hf.1]
    exact h t (List.mem_of_getElem? ht)

theorem inst_newTempFile {d : Path} {ds : List (List Char)} (h : ∀ x, F (d ++ "/.tmp".toList ++ x)) : Always R (newTempFile d ds) := by
  have hR := within_pre F (InstallMay F M P)
  induction ds with
  | nil => exact Always.throw hR _
  | cons x ds ih =>
    unfold newTempFile
    refine Always.bind hR (Always.peek hR _) (fun f => ?_)
    cases f with
    | some f => exact ih
    | none =>
      refine Always.bind hR (within_call (.file _ _ (h x)) (fun _ => rfl) (fun w q hq => ?_)) (fun _ => Always.pure hR _)
      have := ne_of_not (F := F) (h x) hq
      simp only [World.setEntry]
      exact if_neg this

theorem inst_gives {d : Path} {ds : List (List Char)} (h : ∀ x, F (d ++ "/.tmp".toList ++ x)) : Gives F (newTempFile d ds) := by
  induction ds with
  | nil => exact Gives.throw
  | cons x ds ih =>
    unfold newTempFile
    refine Gives.bind (fun f => ?_)
    cases f with
    | some f => exact ih
    | none => exact Gives.bind (fun _ => Gives.pure (h x))

theorem inst_checkIfWritable {D : DirEnv} {d : Path} (h : ∀ x, F (d ++ "/.tmp".toList ++ x)) : Always R (checkIfWritable D d) := by
  have hR := within_pre F (InstallMay F M P)
  unfold checkIfWritable
  refine always_bind_of (K := fun r => ∀ t, r = .ok t → F t) hR (Always.attempt (inst_newTempFile h)) ?_ (fun r hr => ?_)
  · intro w
    rw [wp_attempt]
    refine wp_mono (inst_gives h w) (fun o w' ho => ?_)
    cases o with
    | ok t => rintro _ ⟨⟩ t' ⟨⟩; exact ho t rfl
    | err e => rintro _ ⟨⟩ t' ⟨⟩
    | crash => exact nofun
  · cases r with
    | ok t => exact Always.bind hR (within_removeIgnoring (hr t rfl) (.file _ _ (hr t rfl)) (.removeFailed _ (hr t rfl))) (fun _ => Always.pure hR _)
    | error _ => exact Always.pure hR _

theorem inst_validateDirPath {D : DirEnv} {d : Path} (h : ∀ x, F (d ++ "/.tmp".toList ++ x)) (hm : M d) : Always R (validateDirPath D d) := by
  have hR := within_pre F (InstallMay F M P)
  unfold validateDirPath
  split
  · exact Always.bind hR (within_look (.mkdir _ hm)) (fun _ => Always.pure hR _)
  · split
    · exact Always.throw hR _
    · refine Always.bind hR (inst_checkIfWritable h) (fun b => ?_)
      cases b
      · exact Always.throw hR _
      · exact Always.pure hR _

/-- Choosing the directory; `K`: what holds of it. -/
theorem inst_create {D : DirEnv} {args : UpdateArgs} (h : ∀ d, InstallDir args D.home d → ∀ x, F (d ++ "/.tmp".toList ++ x)) (hm : ∀ d, InstallDir args D.home d → M d) :
    Always R (Updater.create D args) := by
  have hR := within_pre F (InstallMay F M P)
  unfold Updater.create chooseBinPath
  refine Always.bind hR ?_ (fun _ => Always.pure hR _)
  cases hb : args.binPath with
  | some p =>
    have hi : InstallDir args D.home p := by unfold InstallDir; rw [hb]
    simp only
    split
    · exact Always.throw hR _
    · refine Always.bind hR (inst_checkIfWritable (h p hi)) (fun b => ?_)
      cases b
      · exact Always.throw hR _
      · exact Always.pure hR _
  | none =>
    simp only
    by_cases hs : args.server = true
    · rw [if_pos hs]
      have hi : InstallDir args D.home SERVER_BIN_DIR := by unfold InstallDir; rw [hb]; simp only; rw [if_pos hs]; rfl
      exact inst_validateDirPath (h _ hi) (hm _ hi)
    · rw [if_neg hs]
      cases hh : D.home with
      | none => exact Always.throw hR _
      | some p =>
        have hi : InstallDir args D.home (pathPush (pathPush p ".local".toList) "bin".toList) := by
          unfold InstallDir; rw [hb]; simp only; rw [if_neg hs]; exact ⟨p, hh, home_bin p⟩
        exact inst_validateDirPath (h _ hi) (hm _ hi)

theorem gives_updater {D : DirEnv} {args : UpdateArgs} : Gives (fun u => InstallDir args D.home u.binPath ∧ u.server = args.server) (Updater.create D args) := by
  unfold Updater.create
  refine Gives.bind_of (K := InstallDir args D.home) ?_ (fun d hd => Gives.pure ⟨hd, rfl⟩)
  intro w
  refine wp_mono (chooseBinPath_spec D args w) ?_
  rintro o w' (⟨d, hd, hc⟩ | ⟨_, _, e, rfl⟩) p hp
  · rw [hc.dir p hp]
    exact hd
  · cases hp

end

theorem updateFile_mine {server : Bool} {d : Path} {u : Updater} (hd : u.binPath = d) (hs : u.server = server) : ∀ t ∈ u.targets, Mine (UpdateFile server d) (binFile u.binPath t.name) := by
  subst hd hs
  intro t ht
  obtain ⟨b, hb, he⟩ : ∃ b ∈ binaries u.server, b.1.toList = t.name := by
    have : String.ofList t.name ∈ (binaries u.server).map (·.1) := by
      rw [← update_binaries u]
      exact List.mem_map_of_mem ht
    obtain ⟨b, hb, he⟩ := List.mem_map.1 this
    exact ⟨b, hb, by rw [he]; simp⟩
  have e1 : binFile u.binPath t.name = u.binPath ++ "/".toList ++ b.1.toList := by rw [he, List.append_assoc]; rfl
  rw [e1]
  refine ⟨.inl ⟨b, hb, .inl rfl⟩, .inl ⟨b, hb, .inr (.inl rfl)⟩, fun n => .inl ⟨b, hb, .inr (.inr ⟨n.toNat, ?_⟩)⟩⟩
  unfold tmpPath
  simp

theorem Mine.mono {F F' : Path → Prop} {t : Path} (h : Mine F t) (hF : ∀ q, F q → F' q) : Mine F' t := ⟨hF _ h.1, hF _ h.2.1, fun n => hF _ (h.2.2 n)⟩

/-- **C88**, update: whatever fails, and wherever the program dies, `ruroco-client update` touches (for reading or writing) only its lock file and the files of the update in the directory the
update is for; it creates no other directory and runs no program. -/
theorem C88_update_confined (confDir : Path) (held : Bool) (D : DirEnv) (args : UpdateArgs) (env : UpdEnv) (w : World) :
    Within (fun q => q = confDir ++ "/client.lock".toList ∨ ∃ d, InstallDir args D.home d ∧ UpdateFile args.server d q)
      (InstallMay (fun q => q = confDir ++ "/client.lock".toList ∨ ∃ d, InstallDir args D.home d ∧ UpdateFile args.server d q) (InstallDir args D.home) []) w
      (runUpdate confDir held D args env w).2 := by
  revert w
  show Always _ _
  have hR := within_pre (fun q => q = confDir ++ "/client.lock".toList ∨ ∃ d, InstallDir args D.home d ∧ UpdateFile args.server d q)
    (InstallMay (fun q => q = confDir ++ "/client.lock".toList ∨ ∃ d, InstallDir args D.home d ∧ UpdateFile args.server d q) (InstallDir args D.home) [])
  unfold runUpdate acquireLock
  refine Always.bind hR (Always.bind hR (within_openCreate (.inl rfl) (.file _ _ (.inl rfl))) (fun _ => Always.bind hR (within_look (.file _ _ (.inl rfl))) (fun _ => ?_))) (fun _ => ?_)
  · split
    · exact Always.throw hR _
    · exact Always.pure hR _
  · refine always_bind_of hR (inst_create (fun d hd x => .inr ⟨d, hd, .inr ⟨x, rfl⟩⟩) (fun d hd => hd)) gives_updater (fun u hu => ?_)
    exact inst_update (fun t ht => (updateFile_mine rfl hu.2 t ht).mono (fun q hq => .inr ⟨_, hu.1, hq⟩))

example : (runUpdate "/c".toList false exDirs exArgs exUpdEnv (exUpdWorld [])).1 = .ok () ∧ (runUpdate "/c".toList false exDirs exArgs exUpdEnv (exUpdWorld [])).2.log.length > 10 := by decide +kernel

/-! ## The wizard -/

/-- Everything of a run of the wizard between the first program it runs and the second. -/
def wizardMid (env : WizEnv) : Act Unit := do
  wizardUpdate env
  writeData RUROCO_SERVICE_FILE_PATH env.ruroco
  writeData COMMANDER_SERVICE_FILE_PATH env.commander
  writeData SOCKET_FILE_PATH env.socket
  initFile CONFIG_TOML_PATH env.config
  initFile COMMANDS_TOML_PATH env.commands

/-- The rest. -/
def wizardTail (env : WizEnv) : Act Unit := do
  systemctl ["daemon-reload".toList] env.reload
  systemctl ("enable".toList :: units) env.enable
  systemctl ("start".toList :: units) env.start

theorem bind_assoc' (m : Act α) (f : α → Act β) (g : β → Act γ) : ((m >>= f) >>= g) = (m >>= fun a => f a >>= g) := by
  funext w
  show Act.bind (Act.bind m f) g w = Act.bind m (fun a => Act.bind (f a) g) w
  unfold Act.bind
  rcases m w with ⟨o, w'⟩
  cases o <;> rfl

theorem wizardRun_parts (env : WizEnv) : wizardRun env = (createRurocoUser env.useradd >>= fun _ => wizardMid env >>= fun _ => wizardTail env) := by
  unfold wizardRun wizardMid wizardTail
  simp only [bind_assoc']

section

variable {F M : Path → Prop} {P : List (List String)}

local notation "R" => Within F (InstallMay F M P)

theorem inst_writeData {p : Path} {bs : List Byte} (hp : F p) : Always R (writeData p bs) :=
  Always.bind (within_pre _ _) (within_openTrunc hp (.file _ _ hp)) (fun _ => within_writeAll hp (.file _ _ hp))

theorem inst_initFile {p : Path} {bs : List Byte} (hp : F p) : Always R (initFile p bs) := by
  have hR := within_pre F (InstallMay F M P)
  unfold initFile
  have fin : Always R (setPermissions p 0o600) := Always.bind hR (inst_stat hp) (fun _ => within_chmod hp (.file _ _ hp))
  refine Always.bind hR (inst_pathExists hp) (fun b => ?_)
  cases b with
  | true => exact fin
  | false => exact Always.bind hR (inst_writeData hp) (fun _ => fin)

end

theorem inst_wizardMid (env : WizEnv) (P : List (List String)) : Always (Within WizardFile (InstallMay WizardFile (· = "/usr/local/bin".toList) P)) (wizardMid env) := by
  have hR := within_pre WizardFile (InstallMay WizardFile (· = "/usr/local/bin".toList) P)
  unfold wizardMid wizardUpdate
  refine Always.bind hR ?_ (fun _ => ?_)
  · refine always_bind_of hR (inst_create (fun d hd x => ?_) (fun d hd => hd)) gives_updater (fun u hu => ?_)
    · obtain rfl : d = "/usr/local/bin".toList := hd
      exact .inl (.inr ⟨x, rfl⟩)
    · have hd : u.binPath = "/usr/local/bin".toList := hu.1
      exact inst_update (fun t ht => (updateFile_mine hd hu.2 t ht).mono (fun q hq => .inl hq))
  · refine Always.bind hR (inst_writeData (.inr ?_)) (fun _ => Always.bind hR (inst_writeData (.inr ?_)) (fun _ => Always.bind hR (inst_writeData (.inr ?_)) (fun _ =>
      Always.bind hR (inst_initFile (.inr ?_)) (fun _ => inst_initFile (.inr ?_)))))
    · exact List.mem_map.2 ⟨_, .head _, rfl⟩
    · exact List.mem_map.2 ⟨_, .tail _ (.head _), rfl⟩
    · exact List.mem_map.2 ⟨_, .tail _ (.tail _ (.head _)), rfl⟩
    · exact List.mem_map.2 ⟨_, .tail _ (.tail _ (.tail _ (.head _))), rfl⟩
    · exact List.mem_map.2 ⟨_, .tail _ (.tail _ (.tail _ (.tail _ (.head _)))), rfl⟩

theorem inst_systemctl {F M : Path → Prop} {P : List (List String)} {args : List (List Char)} {b : Bool} (h : InstallMay F M P (.program ("systemctl".toList :: args))) :
    Always (Within F (InstallMay F M P)) (systemctl args b) := by
  have hR := within_pre F (InstallMay F M P)
  refine Always.bind hR (within_note h) (fun _ => ?_)
  cases b
  · exact Always.throw hR _
  · exact Always.pure hR _

/-- **C88**, wizard: whatever fails, and wherever the program dies, the wizard touches (for reading or writing) only the lock file, the five files of the installation and the files of the update
in `/usr/local/bin`; it creates no other directory, and runs no program but the four named. -/
theorem C88_wizard_confined (confDir : Path) (held : Bool) (env : WizEnv) (w : World) :
    Within (fun q => q = confDir ++ "/client.lock".toList ∨ WizardFile q)
      (InstallMay (fun q => q = confDir ++ "/client.lock".toList ∨ WizardFile q) (· = "/usr/local/bin".toList) [useraddCall, reloadCall, enableCall, startCall]) w
      (runWizard confDir held env w).2 := by
  revert w
  show Always _ _
  have hR := within_pre (fun q => q = confDir ++ "/client.lock".toList ∨ WizardFile q)
    (InstallMay (fun q => q = confDir ++ "/client.lock".toList ∨ WizardFile q) (· = "/usr/local/bin".toList) [useraddCall, reloadCall, enableCall, startCall])
  unfold runWizard acquireLock
  refine Always.bind hR (Always.bind hR (within_openCreate (.inl rfl) (.file _ _ (.inl rfl))) (fun _ => Always.bind hR (within_look (.file _ _ (.inl rfl))) (fun _ => ?_))) (fun _ => ?_)
  · split
    · exact Always.throw hR _
    · exact Always.pure hR _
  · rw [wizardRun_parts]
    refine Always.bind hR ?_ (fun _ => Always.bind hR ?_ (fun _ => ?_))
    · unfold createRurocoUser
      refine Always.bind hR (within_note (.program useraddCall (by simp))) (fun _ => ?_)
      split
      · exact Always.pure hR _
      · split
        · exact Always.pure hR _
        · exact Always.throw hR _
    · intro w
      refine (inst_wizardMid env [useraddCall, reloadCall, enableCall, startCall] w).mono (fun q hq => .inr hq) (fun e he => ?_)
      cases he with
      | file op q h => exact .file op q (.inr h)
      | mkdir d h => exact .mkdir d h
      | statFailed q h => exact .statFailed q (.inr h)
      | dirSyncFailed q h => exact .dirSyncFailed q (.inr h)
      | removeFailed q h => exact .removeFailed q (.inr h)
      | copyFailed q h => exact .copyFailed q (.inr h)
      | rollbackFailed q h => exact .rollbackFailed q (.inr h)
      | program argv h => exact .program argv h
    · exact Always.bind hR (inst_systemctl (.program reloadCall (by simp))) (fun _ => Always.bind hR (inst_systemctl (.program enableCall (by simp))) (fun _ =>
        inst_systemctl (.program startCall (by simp))))

/-! ## When the services are started -/

theorem wizardMid_quiet (env : WizEnv) (w : World) : ∃ l, (wizardMid env w).2.log = w.log ++ l ∧ ∀ e ∈ l, ∀ argv, e ≠ .program argv := by
  obtain ⟨⟨l, h1, h2⟩, _⟩ := inst_wizardMid env [] w
  refine ⟨l, h1, fun e he argv => ?_⟩
  rintro rfl
  generalize hx : Event.program argv = x at he
  cases h2 x he with
  | program a h => cases h
  | _ => cases hx

theorem unit_written (p : Path) (data : List Byte) (w : World) : wp (writeData p data) w (fun o w' => (∀ q, q ≠ p → w'.fs q = w.fs q) ∧ (o = .ok () → ∃ f, w'.fs p = some f ∧ f.data = data)) := by
  refine wp_mono (writeData_spec p data w) ?_
  rintro o w' ⟨h1, h2⟩
  refine ⟨fun q hq => h1.fs q hq, fun ho => ?_⟩
  obtain ⟨f, hf, hd, _⟩ := h2 ho
  exact ⟨f, hf, hd⟩

/-- What the first half of a successful run leaves. -/
theorem wizardMid_installed (env : WizEnv) (w : World) : wp (wizardMid env) w (fun o w' => o = .ok () → ServerSide env w') := by
  unfold wizardMid
  rw [wp_bind]
  refine wp_mono (wizardUpdate_spec env w) ?_
  rintro o w1 ⟨_, _, h1⟩
  cases o with
  | err e => exact nofun
  | crash => exact nofun
  | ok u =>
  simp only
  obtain ⟨v, _, hv⟩ := h1 rfl
  obtain ⟨r, hc, _, hin⟩ := C43_success wizardUpdater env.upd v (by rw [hv]) (fun h => by cases h.1)
  rw [hv] at hin
  obtain ⟨b0, hb0, ha0, hm0, _⟩ := hin 0 _ rfl
  obtain ⟨b1, hb1, ha1, hm1, ho1⟩ := hin 1 _ rfl
  have hb0 : w1.fs "/usr/local/bin/ruroco-commander".toList = some b0 := hb0
  have hb1 : w1.fs "/usr/local/bin/ruroco-server".toList = some b1 := hb1
  rw [wp_bind]
  refine wp_mono (unit_written _ _ w1) ?_
  rintro o w2 ⟨f2, g2⟩
  cases o with
  | err e => exact nofun
  | crash => exact nofun
  | ok u =>
  simp only
  rw [wp_bind]
  refine wp_mono (unit_written _ _ w2) ?_
  rintro o w3 ⟨f3, g3⟩
  cases o with
  | err e => exact nofun
  | crash => exact nofun
  | ok u =>
  simp only
  rw [wp_bind]
  refine wp_mono (unit_written _ _ w3) ?_
  rintro o w4 ⟨f4, g4⟩
  cases o with
  | err e => exact nofun
  | crash => exact nofun
  | ok u =>
  simp only
  rw [wp_bind]
  refine wp_mono (initFile_spec CONFIG_TOML_PATH env.config w4) ?_
  rintro o w5 h5
  cases o with
  | err e => exact nofun
  | crash => exact nofun
  | ok u =>
  simp only
  refine wp_mono (initFile_spec COMMANDS_TOML_PATH env.commands w5) ?_
  rintro o w6 h6 rfl
  have late : ∀ q, q ≠ CONFIG_TOML_PATH → q ≠ COMMANDS_TOML_PATH → w6.fs q = w4.fs q := fun q h1 h2 => (h6.touch.fs q h2).trans (h5.touch.fs q h1)
  have all : ∀ q, q ≠ RUROCO_SERVICE_FILE_PATH → q ≠ COMMANDER_SERVICE_FILE_PATH → q ≠ SOCKET_FILE_PATH → q ≠ CONFIG_TOML_PATH → q ≠ COMMANDS_TOML_PATH → w6.fs q = w1.fs q :=
    fun q a b c d e => (late q d e).trans ((f4 q c).trans ((f3 q b).trans (f2 q a)))
  refine ⟨?_, ?_, ?_, ?_, ?_, r, hc, ⟨b0, ?_, ha0, hm0⟩, ⟨b1, ?_, ha1, hm1, ho1 _ rfl⟩⟩
  · obtain ⟨f, hf, hd⟩ := g2 rfl
    refine ⟨f, ?_, hd⟩
    show w6.fs RUROCO_SERVICE_FILE_PATH = _
    rw [late _ (by decide) (by decide), f4 _ (by decide), f3 _ (by decide)]
    exact hf
  · obtain ⟨f, hf, hd⟩ := g3 rfl
    refine ⟨f, ?_, hd⟩
    show w6.fs COMMANDER_SERVICE_FILE_PATH = _
    rw [late _ (by decide) (by decide), f4 _ (by decide)]
    exact hf
  · obtain ⟨f, hf, hd⟩ := g4 rfl
    refine ⟨f, ?_, hd⟩
    show w6.fs SOCKET_FILE_PATH = _
    rw [late _ (by decide) (by decide)]
    exact hf
  · obtain ⟨f, hf, hm, _⟩ := h5.done rfl
    exact ⟨f, (h6.touch.fs CONFIG_TOML_PATH (by decide)).trans hf, hm⟩
  · obtain ⟨f, hf, hm, _⟩ := h6.done rfl
    exact ⟨f, hf, hm⟩
  · rw [all _ (by decide) (by decide) (by decide) (by decide) (by decide)]
    exact hb0
  · rw [all _ (by decide) (by decide) (by decide) (by decide) (by decide)]
    exact hb1

/-- What the second half does: nothing to files; some of the three programs in their order, all if it succeeds. -/
theorem wizardTail_spec (env : WizEnv) (w : World) : wp (wizardTail env) w (fun o w' => w'.fs = w.fs ∧ ∃ l, w'.log = w.log ++ l ∧ l <+: [ran reloadCall, ran enableCall, ran startCall] ∧
    (o = .ok () → l = [ran reloadCall, ran enableCall, ran startCall])) := by
  unfold wizardTail systemctl
  rw [wp_bind, wp_bind, wp_note]
  simp only
  cases env.reload with
  | false => exact ⟨rfl, [_], rfl, ⟨[_, _], rfl⟩, nofun⟩
  | true =>
    rw [if_pos rfl, wp_pure]
    simp only
    rw [wp_bind, wp_bind, wp_note]
    simp only
    cases env.enable with
    | false => exact ⟨rfl, [_, _], by rw [List.append_assoc]; rfl, ⟨[_], rfl⟩, nofun⟩
    | true =>
      rw [if_pos rfl, wp_pure]
      simp only
      rw [wp_bind, wp_note]
      simp only
      cases env.start with
      | false => exact ⟨rfl, [_, _, _], by simp only [List.append_assoc]; rfl, List.prefix_refl _, nofun⟩
      | true => exact ⟨rfl, [_, _, _], by simp only [List.append_assoc]; rfl, List.prefix_refl _, fun _ => rfl⟩

/-- **C88**, order: of the four programs the wizard runs the first ones only, in this order; systemd is told to reload only when everything is in place, and from then on no file is touched; a run
that succeeds has run all four. -/
theorem C88_programs (env : WizEnv) (w : World) :
    (∃ l, (wizardRun env w).2.log = w.log ++ ran useraddCall :: l ∧ ((∀ e ∈ l, ∀ argv, e ≠ .program argv) ∨
      ∃ l1 l2, l = l1 ++ l2 ∧ (∀ e ∈ l1, ∀ argv, e ≠ .program argv) ∧ l2 <+: [ran reloadCall, ran enableCall, ran startCall] ∧ ServerSide env (wizardRun env w).2)) ∧
    ((wizardRun env w).1 = .ok () → ServerSide env (wizardRun env w).2 ∧
      ∃ l1, (wizardRun env w).2.log = w.log ++ ran useraddCall :: l1 ++ [ran reloadCall, ran enableCall, ran startCall] ∧ ∀ e ∈ l1, ∀ argv, e ≠ .program argv) := by
  have key : wp (wizardRun env) w (fun o w' =>
    (∃ l, w'.log = w.log ++ ran useraddCall :: l ∧ ((∀ e ∈ l, ∀ argv, e ≠ .program argv) ∨
      ∃ l1 l2, l = l1 ++ l2 ∧ (∀ e ∈ l1, ∀ argv, e ≠ .program argv) ∧ l2 <+: [ran reloadCall, ran enableCall, ran startCall] ∧ ServerSide env w')) ∧
    (o = .ok () → ServerSide env w' ∧
      ∃ l1, w'.log = w.log ++ ran useraddCall :: l1 ++ [ran reloadCall, ran enableCall, ran startCall] ∧ ∀ e ∈ l1, ∀ argv, e ≠ .program argv)) := by
    rw [wizardRun_parts, wp_bind]
    have huser : wp (createRurocoUser env.useradd) w (fun _ w' => w'.log = w.log ++ [ran useraddCall]) := by
      unfold createRurocoUser
      rw [wp_bind, wp_note]
      simp only
      split
      · rfl
      · split <;> rfl
    refine wp_mono huser ?_
    intro o w0 h0
    cases o with
    | err e => exact ⟨⟨[], h0, .inl (by simp)⟩, nofun⟩
    | crash => exact ⟨⟨[], h0, .inl (by simp)⟩, nofun⟩
    | ok u =>
    simp only
    rw [wp_bind]
    have both : wp (wizardMid env) w0 (fun o w' => (∃ l, w'.log = w0.log ++ l ∧ ∀ e ∈ l, ∀ argv, e ≠ .program argv) ∧ (o = .ok () → ServerSide env w')) :=
      ⟨wizardMid_quiet env w0, wizardMid_installed env w0⟩
    refine wp_mono both ?_
    rintro o w1 ⟨⟨l, hl, hq⟩, hi⟩
    have hl : w1.log = w.log ++ ran useraddCall :: l := by rw [hl, h0, List.append_assoc]; rfl
    cases o with
    | err e => exact ⟨⟨l, hl, .inl hq⟩, nofun⟩
    | crash => exact ⟨⟨l, hl, .inl hq⟩, nofun⟩
    | ok u =>
    simp only
    refine wp_mono (wizardTail_spec env w1) ?_
    rintro o w2 ⟨hfs, l2, hl2, hp, hok⟩
    have hs : ServerSide env w2 := by
      have := hi rfl
      constructor
      all_goals simp only [Has, hfs]
      · exact this.service
      · exact this.commanderService
      · exact this.socket
      · exact this.config
      · exact this.commands
      · exact this.binaries
    refine ⟨⟨l ++ l2, by rw [hl2, hl, List.append_assoc]; rfl, .inr ⟨l, l2, rfl, hq, hp, hs⟩⟩, fun ho => ⟨hs, l, ?_, hq⟩⟩
    rw [hl2, hl, hok ho]
  exact key

/-- A run that succeeds; one that ends while the second unit file is written and runs no further program. -/
example : (wizardRun exWizEnv exBlank).1 = .ok () ∧ (wizardRun exWizEnv exBlank).2.log.length > 30 ∧
    (wizardRun exWizEnv { exBlank with oracle := List.replicate 22 .ok ++ [.err 0] }).1 ≠ .ok () ∧
    (wizardRun exWizEnv { exBlank with oracle := List.replicate 22 .ok ++ [.err 0] }).2.log.getLast? = some (.file .write COMMANDER_SERVICE_FILE_PATH) := by decide +kernel

/-! ## Running it again -/

/-- A unit file that is there is rewritten in place. -/
theorem unit_rewritten (p : Path) (data : List Byte) (w : World) : wp (writeData p data) w (fun o w' => (∀ q, q ≠ p → w'.fs q = w.fs q) ∧
    (o = .ok () → ∀ g, w.fs p = some g → ∃ f, w'.fs p = some f ∧ f.data = data ∧ f.mode = g.mode ∧ f.owner = g.owner)) := by
  refine wp_mono (writeData_spec p data w) ?_
  rintro o w' ⟨h1, h2⟩
  refine ⟨fun q hq => h1.fs q hq, fun ho g hg => ?_⟩
  obtain ⟨f, hf, hd, hm⟩ := h2 ho
  exact ⟨f, hf, hd, hm.2 g hg⟩

theorem wizardMid_units (env : WizEnv) (w : World) : wp (wizardMid env) w (fun o w' => o = .ok () → ∀ p g, p = RUROCO_SERVICE_FILE_PATH ∨ p = COMMANDER_SERVICE_FILE_PATH ∨ p = SOCKET_FILE_PATH →
    w.fs p = some g → ∃ f, w'.fs p = some f ∧ f.mode = g.mode ∧ f.owner = g.owner) := by
  unfold wizardMid
  rw [wp_bind]
  refine wp_mono (wizardUpdate_spec env w) ?_
  rintro o w1 ⟨_, f1, _⟩
  cases o with
  | err e => exact nofun
  | crash => exact nofun
  | ok u =>
  simp only
  rw [wp_bind]
  refine wp_mono (unit_rewritten _ _ w1) ?_
  rintro o w2 ⟨f2, g2⟩
  cases o with
  | err e => exact nofun
  | crash => exact nofun
  | ok u =>
  simp only
  rw [wp_bind]
  refine wp_mono (unit_rewritten _ _ w2) ?_
  rintro o w3 ⟨f3, g3⟩
  cases o with
  | err e => exact nofun
  | crash => exact nofun
  | ok u =>
  simp only
  rw [wp_bind]
  refine wp_mono (unit_rewritten _ _ w3) ?_
  rintro o w4 ⟨f4, g4⟩
  cases o with
  | err e => exact nofun
  | crash => exact nofun
  | ok u =>
  simp only
  rw [wp_bind]
  refine wp_mono (initFile_spec CONFIG_TOML_PATH env.config w4) ?_
  rintro o w5 h5
  cases o with
  | err e => exact nofun
  | crash => exact nofun
  | ok u =>
  simp only
  refine wp_mono (initFile_spec COMMANDS_TOML_PATH env.commands w5) ?_
  rintro o w6 h6 rfl p g hp hg
  have late : ∀ q, q ≠ CONFIG_TOML_PATH → q ≠ COMMANDS_TOML_PATH → w6.fs q = w4.fs q := fun q h1 h2 => (h6.touch.fs q h2).trans (h5.touch.fs q h1)
  rcases hp with rfl | rfl | rfl
  · obtain ⟨f, hf, _, hm, ho⟩ := g2 rfl g (by rw [f1 _ (by decide)]; exact hg)
    refine ⟨f, ?_, hm, ho⟩
    rw [late _ (by decide) (by decide), f4 _ (by decide), f3 _ (by decide)]
    exact hf
  · obtain ⟨f, hf, _, hm, ho⟩ := g3 rfl g (by rw [f2 _ (by decide), f1 _ (by decide)]; exact hg)
    refine ⟨f, ?_, hm, ho⟩
    rw [late _ (by decide) (by decide), f4 _ (by decide)]
    exact hf
  · obtain ⟨f, hf, _, hm, ho⟩ := g4 rfl g (by rw [f3 _ (by decide), f2 _ (by decide), f1 _ (by decide)]; exact hg)
    refine ⟨f, ?_, hm, ho⟩
    rw [late _ (by decide) (by decide)]
    exact hf

theorem wizardRun_units (env : WizEnv) (w : World) (hok : (wizardRun env w).1 = .ok ()) (p : Path) (g : File)
    (hp : p = RUROCO_SERVICE_FILE_PATH ∨ p = COMMANDER_SERVICE_FILE_PATH ∨ p = SOCKET_FILE_PATH) (hg : w.fs p = some g) :
    ∃ f, (wizardRun env w).2.fs p = some f ∧ f.mode = g.mode ∧ f.owner = g.owner := by
  have key : wp (wizardRun env) w (fun o w' => o = .ok () → ∃ f, w'.fs p = some f ∧ f.mode = g.mode ∧ f.owner = g.owner) := by
    rw [wizardRun_parts, wp_bind]
    have huser : wp (createRurocoUser env.useradd) w (fun _ w' => w'.fs = w.fs) := by
      unfold createRurocoUser
      rw [wp_bind, wp_note]
      simp only
      split
      · rfl
      · split <;> rfl
    refine wp_mono huser ?_
    intro o w0 h0
    cases o with
    | err e => exact nofun
    | crash => exact nofun
    | ok u =>
    simp only
    rw [wp_bind]
    refine wp_mono (wizardMid_units env w0) ?_
    intro o w1 h1
    cases o with
    | err e => exact nofun
    | crash => exact nofun
    | ok u =>
    simp only
    refine wp_mono (wizardTail_spec env w1) ?_
    rintro o w2 ⟨hfs, _⟩ _
    rw [hfs]
    exact h1 rfl p g hp (by rw [h0]; exact hg)
  exact key hok

theorem authentic_unique {env : UpdEnv} {r : Release} {i : Nat} {pfx : List Char} {a b : List Byte} (ha : Authentic env r i pfx a) (hb : Authentic env r i pfx b) : a = b := by
  have url : ∀ {name u u' : List Char}, AssetUrl r name u → AssetUrl r name u' → u = u' := by
    intro name u u' h h'
    have := ((C46_asset r name u).2 h).symm.trans ((C46_asset r name u').2 h')
    cases this
    rfl
  obtain ⟨u, _, _, hu, _, ⟨hf, _⟩, _⟩ := ha
  obtain ⟨u', _, _, hu', _, ⟨hf', _⟩, _⟩ := hb
  obtain rfl := url hu hu'
  rw [hf] at hf'
  cases hf'
  rfl

/-- **C88**, again: after a successful run, a second successful run with the same release available (whatever the clock, and whatever failures it recovers from, except that looking for one of the
two configuration files must not fail) leaves the units, the configuration and the binaries with the same contents, modes and owners (for the commander's binary: contents and mode). -/
theorem C88_again (env : WizEnv) (w v : World) (hok : (wizardRun env w).1 = .ok ()) (hv : v.fs = (wizardRun env w).2.fs) (hok' : (wizardRun env v).1 = .ok ())
    (hs : ∀ p ∈ ["/etc/ruroco/config.toml", "/etc/ruroco/commands.toml"], .statFailed p.toList ∉ (wizardRun env v).2.log) :
    (∀ p ∈ ["/etc/systemd/system/ruroco.service", "/etc/systemd/system/ruroco-commander.service", "/etc/systemd/system/ruroco.socket", "/etc/ruroco/config.toml", "/etc/ruroco/commands.toml",
      "/usr/local/bin/ruroco-server"], SameOwned v (wizardRun env v).2 p) ∧ SameFile v (wizardRun env v).2 "/usr/local/bin/ruroco-commander" := by
  have h1 := ((C88_programs env w).2 hok).1
  have h2 := ((C88_programs env v).2 hok').1
  have hk := wizardRun_spec env v
  have unit : ∀ (p : String) (bytes : List Byte), (p.toList = RUROCO_SERVICE_FILE_PATH ∨ p.toList = COMMANDER_SERVICE_FILE_PATH ∨ p.toList = SOCKET_FILE_PATH) → Has (wizardRun env w).2 p bytes →
      Has (wizardRun env v).2 p bytes → SameOwned v (wizardRun env v).2 p := by
    rintro p bytes hp ⟨f, hf, hd⟩ ⟨f', hf', hd'⟩
    rw [← hv] at hf
    obtain ⟨g, hg, hm, ho⟩ := wizardRun_units env v hok' p.toList f hp hf
    rw [hf'] at hg
    cases hg
    exact ⟨f, f', hf, hf', hd'.trans hd.symm, hm, ho⟩
  have conf : ∀ p : String, Operators p.toList → .statFailed p.toList ∉ (wizardRun env v).2.log → (∃ f, (wizardRun env w).2.fs p.toList = some f ∧ f.mode = 0o600) →
      (∃ f, (wizardRun env v).2.fs p.toList = some f ∧ f.mode = 0o600) → SameOwned v (wizardRun env v).2 p := by
    rintro p hp hn ⟨f, hf, hm⟩ ⟨f', hf', hm'⟩
    rw [← hv] at hf
    obtain ⟨g, hg, hd, ho⟩ := hk.keep p.toList hp hn f hf
    rw [hf'] at hg
    cases hg
    exact ⟨f, f', hf, hf', hd, by rw [hm, hm'], ho⟩
  obtain ⟨r, hc, ⟨a, ha, haa, ham⟩, ⟨b, hb, hba, hbm, hbo⟩⟩ := h1.binaries
  obtain ⟨r', hc', ⟨a', ha', haa', ham'⟩, ⟨b', hb', hba', hbm', hbo'⟩⟩ := h2.binaries
  obtain rfl := C46_release_unique env.upd none r r' hc hc'
  refine ⟨?_, a, a', by rw [hv]; exact ha, ha', authentic_unique haa' haa, ham'.trans ham.symm⟩
  intro p hp
  simp only [List.mem_cons, List.not_mem_nil, or_false] at hp
  rcases hp with rfl | rfl | rfl | rfl | rfl | rfl
  · exact unit _ _ (.inl rfl) h1.service h2.service
  · exact unit _ _ (.inr (.inl rfl)) h1.commanderService h2.commanderService
  · exact unit _ _ (.inr (.inr rfl)) h1.socket h2.socket
  · exact conf _ (.inl rfl) (hs _ (by simp)) h1.config h2.config
  · exact conf _ (.inr rfl) (hs _ (by simp)) h1.commands h2.commands
  · exact ⟨b, b', by rw [hv]; exact hb, hb', authentic_unique hba' hba, hbm'.trans hbm.symm, hbo'.trans hbo.symm⟩

/-- A second run on the machine of the first. -/
example : (wizardRun exWizEnv exBlank).1 = .ok () ∧ (wizardRun exWizEnv { (wizardRun exWizEnv exBlank).2 with clock := List.replicate 9 (some 6) }).1 = .ok () ∧
    ((wizardRun exWizEnv { (wizardRun exWizEnv exBlank).2 with clock := List.replicate 9 (some 6) }).2.log.all (fun e => match e with | .statFailed _ => false | _ => true)) = true := by decide +kernel

end Ruroco
