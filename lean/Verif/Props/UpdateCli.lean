import Verif.Props.Update
import Verif.Spec.UpdateCli
import Verif.Lemmas.UiExec
import Verif.Spec.Terms.UpdateCli

/-!
# C73: a successful update leaves the release installed; C74: where an update goes; C75: binaries are those signed for the release
-/

namespace Ruroco

open Spec (ChosenRelease Authentic UpToDate InstallDir Unusable Installed Made Unforgeable AssetUrl Received content)

/-! ## C73 -/

/-- **C73**, proved part: after an update reported as successful the binaries of the chosen release are installed, if it was forced, or if in the case that the *running program* is of
that release, its binaries had been installed before. Missing: the case that the running program is up to date but the binaries to be updated are not, see `C73_server_left_old`. -/
theorem C73_installed_partial (u : Updater) (env : UpdEnv) (w : World) (hok : (u.update env w).1 = .ok ())
    (h : UpToDate u env → ∃ r, ChosenRelease env u.version r ∧ Installed u env r w) : ∃ r, ChosenRelease env u.version r ∧ Installed u env r (u.update env w).2 := by
  by_cases hu : UpToDate u env
  · rcases update_cases u env w with ⟨_, he⟩ | ⟨e, _, he⟩ | ⟨vs, hp, _⟩
    · rw [he]
      exact h hu
    · rw [he] at hok
      cases hok
    · obtain ⟨_, _, hn, _⟩ := plan_some u env vs hp
      exact absurd hu hn
  · obtain ⟨r, hc, _, hin⟩ := C43_success u env w hok hu
    refine ⟨r, hc, fun i t ht => ?_⟩
    obtain ⟨f, hf, ha, _⟩ := hin i t ht
    refine ⟨f, ?_, ha⟩
    rw [List.append_assoc]
    exact hf

/-- **C73**, exactly: after an update reported as successful the chosen release is installed if and only if there was something to do, or it had been installed before. -/
theorem C73_installed_iff (u : Updater) (env : UpdEnv) (w : World) (hok : (u.update env w).1 = .ok ()) :
    (∃ r, ChosenRelease env u.version r ∧ Installed u env r (u.update env w).2) ↔ (UpToDate u env → ∃ r, ChosenRelease env u.version r ∧ Installed u env r w) := by
  refine ⟨?_, C73_installed_partial u env w hok⟩
  intro h hu
  rcases update_cases u env w with ⟨_, he⟩ | ⟨e, _, he⟩ | ⟨vs, hp, _⟩
  · rw [he] at h
    exact h
  · rw [he] at hok
    cases hok
  · obtain ⟨_, _, hn, _⟩ := plan_some u env vs hp
    exact absurd hu hn

/-- The version of the running client decides whether there is anything to do. -/
def exUpToDate : UpdEnv := { exUpdEnv with current := "v0.6.0".toList }

theorem exUpToDate_chosen : ChosenRelease exUpToDate none ⟨"v0.6.0".toList, exAssets "v0.6.0", false⟩ :=
  ⟨_, rfl, [⟨"v0.7.0".toList, [], true⟩], [⟨"v0.5.0".toList, [], false⟩], rfl, rfl, by simp⟩

/-- **C73 is false as stated**: whether an update is needed is decided by the version of the running client. `ruroco-client update --server` with a client of the latest release reports
success and leaves older server binaries as they are. -/
theorem C73_server_left_old : ∃ (u : Updater) (env : UpdEnv) (w : World) (r : Release), u.server = true ∧ u.version = none ∧ ChosenRelease env none r ∧ (u.update env w).1 = .ok () ∧
    (u.update env w).2 = w ∧ ∃ f, w.fs (u.binPath ++ "/ruroco-server".toList) = some f ∧ ∀ i, ¬ Authentic env r i "server".toList f.data := by
  refine ⟨exUpdater, exUpToDate, exUpdWorld [], _, rfl, rfl, exUpToDate_chosen, by decide +kernel, ?_, exSrvOld, by decide +kernel, ?_⟩
  · rcases update_cases exUpdater exUpToDate (exUpdWorld []) with ⟨_, he⟩ | ⟨e, he, _⟩ | ⟨vs, hp, _⟩
    · rw [he]
    · rw [show exUpdater.plan exUpToDate = .ok none from by decide +kernel] at he
      cases he
    · rw [show exUpdater.plan exUpToDate = .ok none from by decide +kernel] at hp
      cases hp
  · rintro i ⟨_, _, _, _, _, ⟨h, _⟩, _⟩
    have h' : (some (if (2 * i) % 2 = 0 then [7, 7, 7] else [1]) : Option (List Byte)) = some [4, 5, 6] := h
    rw [if_pos (by omega)] at h'
    revert h'
    decide

/-- With `--force` the same update replaces them. -/
example : ({ exUpdater with force := true }.update exUpToDate (exUpdWorld [])).1 = .ok () ∧
    content ({ exUpdater with force := true }.update exUpToDate (exUpdWorld [])).2 exSrvBin = some [7, 7, 7] ∧ ¬ UpToDate { exUpdater with force := true } exUpToDate :=
  ⟨by decide +kernel, by decide +kernel, fun h => by cases h.1⟩

/-! ## C74 -/

/-- Only a file by which writing to `d` is tried may have appeared. -/
def Probed (D : DirEnv) (d : Path) (w w' : World) : Prop := Touch (fun q => (∃ x ∈ D.draws, q = d ++ "/.tmp".toList ++ x) ∧ w.fs q = none) w w'

theorem Probed.refl (D : DirEnv) (d : Path) (w : World) : Probed D d w w := (touch_pre _).refl w

theorem checkIfWritable_spec (D : DirEnv) (d : Path) (w : World) : wp (checkIfWritable D d) w (fun o w' => Probed D d w w' ∧ ∀ e, o ≠ .err e) := by
  unfold checkIfWritable
  rw [wp_bind, wp_attempt]
  refine wp_mono (newTempFile_spec d D.draws w) ?_
  intro o w' h
  cases h with
  | made x hx o w' habs ho ht f hf hm hdata =>
    have h1 : Probed D d w w' := ht.mono (by rintro q rfl; exact ⟨⟨x, hx, rfl⟩, habs⟩)
    rcases ho with rfl | rfl
    · simp only
      rw [wp_bind]
      refine wp_mono (dropTempFile_spec _ w') ?_
      intro o w'' h
      have h2 : Probed D d w w'' := h1.trans (h.1.mono (by rintro q rfl; exact ⟨⟨x, hx, rfl⟩, habs⟩))
      cases o with
      | ok _ => exact ⟨h2, nofun⟩
      | err e => exact absurd rfl (h.2.2.1 e)
      | crash => exact ⟨h2, nofun⟩
    · exact ⟨h1, nofun⟩
  | failed o w' ho ht =>
    have h1 : Probed D d w w' := ht.mono nofun
    cases o with
    | ok p => exact absurd rfl (ho p)
    | err e => exact ⟨h1, nofun⟩
    | crash => exact ⟨h1, nofun⟩

/-- What choosing the directory `d` comes to. -/
structure Chose (D : DirEnv) (d : Path) (bad : Prop) (w : World) (o : Out Path) (w' : World) : Prop where
  probed : Probed D d w w'
  dir : ∀ p, o = .ok p → p = d
  usable : bad → (∃ e, o = .err e) ∧ w' = w

theorem tried (D : DirEnv) (d : Path) (w : World) (bad : Prop) (hb : ¬ bad) :
    wp (do if !(← checkIfWritable D d) then Act.throw .config else pure d) w (Chose D d bad w) := by
  rw [wp_bind]
  refine wp_mono (checkIfWritable_spec D d w) ?_
  rintro o w' ⟨h1, h2⟩
  cases o with
  | err e => exact absurd rfl (h2 e)
  | crash => exact ⟨h1, nofun, fun h => absurd h hb⟩
  | ok b =>
    cases b with
    | false => exact ⟨h1, nofun, fun h => absurd h hb⟩
    | true => exact ⟨h1, fun p hp => by cases hp; rfl, fun h => absurd h hb⟩

theorem validateDirPath_spec (D : DirEnv) (d : Path) (w : World) : wp (validateDirPath D d) w (Chose D d (D.exists_ d = true ∧ D.isDir d = false) w) := by
  unfold validateDirPath
  by_cases he : D.exists_ d = true
  · rw [if_neg (by simp [he])]
    by_cases hd : D.isDir d = true
    · rw [if_neg (by simp [hd])]
      exact tried D d w _ (by simp [hd])
    · rw [if_pos (by simp [hd])]
      exact ⟨Probed.refl D d w, nofun, fun _ => ⟨⟨_, rfl⟩, rfl⟩⟩
  · rw [if_pos (by simp [he]), wp_bind]
    have same : ∀ (o : List Choice), Probed D d w { w with log := w.log ++ [.file .mkdir d], oracle := o } := fun o => touch_of_same rfl ⟨_, rfl⟩
    refine wp_atomicCall _ _ _ _ (fun o => ?_) (fun o => ?_) (fun o => ?_) (fun o => ?_)
    · exact ⟨same o, fun p hp => by cases hp; rfl, fun h => absurd h.1 he⟩
    · exact ⟨same o, nofun, fun h => absurd h.1 he⟩
    · exact ⟨same o, nofun, fun h => absurd h.1 he⟩
    · exact ⟨same o, nofun, fun h => absurd h.1 he⟩

theorem home_bin (h : Path) : pathPush (pathPush h ".local".toList) "bin".toList =
    h ++ (if h = [] ∨ h.getLast? = some '/' then ".local/bin".toList else "/.local/bin".toList) := by
  have hl : ∀ t : Path, (t ++ ".local".toList).getLast? = some 'l' := fun t => by
    rw [show ".local".toList = ".loca".toList ++ ['l'] from rfl, ← List.append_assoc, List.getLast?_concat]
  have hn : ∀ t : Path, t ++ ".local".toList ≠ [] := fun t ht => by have := hl t; rw [ht] at this; cases this
  have e2 : ∀ t : Path, pathPush (t ++ ".local".toList) "bin".toList = t ++ ".local/bin".toList := by
    intro t
    unfold pathPush
    rw [if_neg (by decide), if_neg (by rw [hl]; intro h; exact h.elim (hn t) (fun h => absurd h (by decide)))]
    rw [List.append_assoc]
    rfl
  by_cases hs : h = [] ∨ h.getLast? = some '/'
  · rw [if_pos hs, show pathPush h ".local".toList = h ++ ".local".toList from by unfold pathPush; rw [if_neg (by decide), if_pos hs]]
    exact e2 h
  · rw [if_neg hs, show pathPush h ".local".toList = h ++ "/".toList ++ ".local".toList from by unfold pathPush; rw [if_neg (by decide), if_neg hs, List.append_assoc]; rfl]
    rw [e2, List.append_assoc]
    rfl

theorem chooseBinPath_spec (D : DirEnv) (args : UpdateArgs) (w : World) : wp (chooseBinPath D args) w (fun o w' =>
    (∃ d, InstallDir args D.home d ∧ Chose D d (Unusable args D d) w o w') ∨ ((∀ d, ¬ InstallDir args D.home d) ∧ w' = w ∧ ∃ e, o = .err e)) := by
  unfold chooseBinPath
  cases hb : args.binPath with
  | some p =>
    simp only
    have hi : InstallDir args D.home p := by unfold InstallDir; rw [hb]
    by_cases hu : D.exists_ p = true ∧ D.isDir p = true
    · rw [if_neg (by simp [hu.1, hu.2])]
      refine wp_mono (tried D p w (Unusable args D p) ?_) (fun o w' h => Or.inl ⟨p, hi, h⟩)
      rintro (h | h)
      · rw [hu.2] at h; cases h.2
      · rw [hu.1] at h; cases h.2
    · rw [if_pos (by cases h1 : D.exists_ p <;> cases h2 : D.isDir p <;> simp_all)]
      exact Or.inl ⟨p, hi, Probed.refl D p w, nofun, fun _ => ⟨⟨_, rfl⟩, rfl⟩⟩
  | none =>
    have weaken : ∀ d o w', InstallDir args D.home d → Chose D d (D.exists_ d = true ∧ D.isDir d = false) w o w' → Chose D d (Unusable args D d) w o w' :=
      fun d o w' _ h => ⟨h.probed, h.dir, fun hu => h.usable (hu.resolve_right (fun h => by rw [hb] at h; cases h.1))⟩
    simp only
    by_cases hs : args.server = true
    · rw [if_pos hs]
      have hi : InstallDir args D.home SERVER_BIN_DIR := by unfold InstallDir; rw [hb]; simp only; rw [if_pos hs]; rfl
      exact wp_mono (validateDirPath_spec D _ w) (fun o w' h => Or.inl ⟨_, hi, weaken _ _ _ hi h⟩)
    · rw [if_neg hs]
      cases hh : D.home with
      | none =>
        refine Or.inr ⟨fun d hd => ?_, rfl, _, rfl⟩
        unfold InstallDir at hd
        rw [hb] at hd
        simp only [if_neg hs] at hd
        obtain ⟨_, h, _⟩ := hd
        cases h
      | some h =>
        have hi : InstallDir args D.home (pathPush (pathPush h ".local".toList) "bin".toList) := by
          unfold InstallDir; rw [hb]; simp only; rw [if_neg hs]; exact ⟨h, hh, home_bin h⟩
        rw [hh] at hi
        exact wp_mono (validateDirPath_spec D _ w) (fun o w' hc => Or.inl ⟨_, hi, weaken _ _ _ (hh ▸ hi) hc⟩)

theorem acquireLock_touch (p : Path) (held : Bool) (w : World) : wp (acquireLock p held) w (fun _ w' => Touch (· = p) w w') := by
  unfold acquireLock openCreate
  rw [wp_bind]
  have after : ∀ w1, Touch (· = p) w w1 → wp (do atomicCall (.file .lock p) id; if held then Act.throw .locked else pure ()) w1 (fun _ w' => Touch (· = p) w w') := by
    intro w1 h1
    rw [wp_bind]
    have hs : ∀ o, Touch (· = p) w { w1 with log := w1.log ++ [.file .lock p], oracle := o } := fun o => h1.trans (touch_of_same rfl ⟨_, rfl⟩)
    refine wp_atomicCall _ _ _ _ (fun o => ?_) (fun o => ?_) (fun o => ?_) (fun o => ?_)
    · simp only [id]
      cases held <;> exact hs o
    · exact hs o
    · exact hs o
    · exact hs o
  have opened : ∀ o, Touch (· = p) w ((fun w : World => match w.fs p with
      | some _ => w
      | none => w.setEntry p (some ⟨[], w.newMode, false, .creator⟩)) { w with log := w.log ++ [.file .openTrunc p], oracle := o }) := by
    intro o
    simp only
    cases hf : w.fs p with
    | some f => exact touch_of_same rfl ⟨_, rfl⟩
    | none => exact ⟨fun q hq => by simp [World.setEntry, hq], List.prefix_append _ _⟩
  have same : ∀ o, Touch (· = p) w { w with log := w.log ++ [.file .openTrunc p], oracle := o } := fun o => touch_of_same rfl ⟨_, rfl⟩
  refine wp_atomicCall _ _ _ _ (fun o => ?_) (fun o => ?_) (fun o => ?_) (fun o => ?_)
  · exact after _ (opened o)
  · exact same o
  · exact same o
  · exact opened o

theorem update_binaries (u : Updater) : u.targets.map (fun t => String.ofList t.name) = (Spec.binaries u.server).map (·.1) := by
  unfold Updater.targets Spec.binaries
  cases u.server <;> decide +kernel

/-- **C74.** Whatever fails, and wherever the program dies: `ruroco-client update` changes files in the directory it was told only (or, if none was given, `/usr/local/bin` for the server
side, `.local/bin` in the home directory for the client), and there only the binaries with their copies and temporary files. -/
theorem C74_only_there (confDir : Path) (held : Bool) (D : DirEnv) (args : UpdateArgs) (env : UpdEnv) (w : World) (q : Path)
    (hq : ¬ MayChange confDir D args w q) : (runUpdate confDir held D args env w).2.fs q = w.fs q := by
  have key : wp (runUpdate confDir held D args env) w (fun _ w' => w'.fs q = w.fs q) := by
    unfold runUpdate
    rw [wp_bind]
    refine wp_mono (acquireLock_touch _ held w) ?_
    intro o w1 h1
    have hq1 : w1.fs q = w.fs q := h1.fs q (fun h => hq (Or.inl h))
    cases o with
    | err e => exact hq1
    | crash => exact hq1
    | ok _ =>
      simp only
      unfold Updater.create
      rw [wp_bind, wp_bind]
      refine wp_mono (chooseBinPath_spec D args w1) ?_
      intro o w2 h2
      rcases h2 with ⟨d, hd, h2⟩ | ⟨_, rfl, e, rfl⟩
      · have hq2 : w2.fs q = w.fs q := by
          rw [h2.probed.fs q ?_, hq1]
          rintro ⟨hx, hn⟩
          exact hq (Or.inr ⟨d, hd, Or.inl ⟨hx, by rw [← hq1]; exact hn⟩⟩)
        cases o with
        | err e => exact hq2
        | crash => exact hq2
        | ok p =>
          obtain rfl := h2.dir p rfl
          simp only
          rw [wp_pure]
          simp only
          have := (C43_only_verified ⟨args.force, args.version, p, args.server⟩ env w2).1 q ?_
          · exact this.trans hq2
          · intro t ht
            have hb : ∃ b ∈ Spec.binaries args.server, b.1.toList = t.name := by
              have : String.ofList t.name ∈ (Spec.binaries args.server).map (·.1) := by
                rw [← update_binaries ⟨args.force, args.version, p, args.server⟩]
                exact List.mem_map_of_mem ht
              obtain ⟨b, hb, he⟩ := List.mem_map.1 this
              exact ⟨b, hb, by rw [he]; simp⟩
            obtain ⟨b, hb, he⟩ := hb
            have e1 : binFile p t.name = p ++ "/".toList ++ b.1.toList := by rw [he, List.append_assoc]; rfl
            simp only
            rw [e1]
            exact ⟨fun h => hq (Or.inr ⟨p, hd, Or.inr ⟨b, hb, Or.inl h⟩⟩), fun h => hq (Or.inr ⟨p, hd, Or.inr ⟨b, hb, Or.inr (Or.inl h)⟩⟩),
              fun h => hq (Or.inr ⟨p, hd, Or.inr ⟨b, hb, Or.inr (Or.inr h)⟩⟩)⟩
      · exact hq1
  exact key

/-- **C74**: if that directory can not be used, or there is no home directory to look in, the update fails and nothing but the lock file is touched. -/
theorem C74_unusable (confDir : Path) (held : Bool) (D : DirEnv) (args : UpdateArgs) (env : UpdEnv) (w : World)
    (h : ∀ d, InstallDir args D.home d → Unusable args D d) :
    (runUpdate confDir held D args env w).1 ≠ .ok () ∧ ∀ q, q ≠ confDir ++ "/client.lock".toList → (runUpdate confDir held D args env w).2.fs q = w.fs q := by
  have key : wp (runUpdate confDir held D args env) w (fun o w' => o ≠ .ok () ∧ Touch (· = confDir ++ "/client.lock".toList) w w') := by
    unfold runUpdate
    rw [wp_bind]
    refine wp_mono (acquireLock_touch _ held w) ?_
    intro o w1 h1
    cases o with
    | err e => exact ⟨nofun, h1⟩
    | crash => exact ⟨nofun, h1⟩
    | ok _ =>
      simp only
      unfold Updater.create
      rw [wp_bind, wp_bind]
      refine wp_mono (chooseBinPath_spec D args w1) ?_
      intro o w2 h2
      rcases h2 with ⟨d, hd, h2⟩ | ⟨_, rfl, e, rfl⟩
      · obtain ⟨⟨e, rfl⟩, rfl⟩ := h2.usable (h d hd)
        exact ⟨nofun, h1⟩
      · exact ⟨nofun, h1⟩
  exact ⟨key.1, fun q hq => key.2.fs q hq⟩

theorem newTempFile_refused (d : Path) (draws : List (List Char)) (w : World) (k : Nat) (rest : List Choice) (hw : w.oracle = .err k :: rest) :
    wp (newTempFile d draws) w (fun o w' => (∃ e, o = .err e) ∧ w'.fs = w.fs) := by
  induction draws with
  | nil => exact ⟨⟨_, rfl⟩, rfl⟩
  | cons x xs ih =>
    unfold newTempFile
    rw [wp_bind, wp_peek]
    cases w.fs (tempKeyPath d x) with
    | some f => exact ih
    | none =>
      simp only
      rw [wp_bind]
      unfold wp atomicCall syscall
      simp [hw]

theorem atomicCall_ok {ev : Event} {eff : World → World} {w : World} {rest : List Choice} (hw : w.oracle = .ok :: rest) :
    atomicCall ev eff w = (.ok (), eff { w with log := w.log ++ [ev], oracle := rest }) := by
  unfold atomicCall syscall
  simp only [hw]

theorem acquireLock_oracle (p : Path) (held : Bool) (w : World) (rest : List Choice) (hw : w.oracle = .ok :: .ok :: rest) :
    wp (acquireLock p held) w (fun o w' => (o = .ok () ∧ w'.oracle = rest) ∨ ∃ e, o = .err e) := by
  unfold acquireLock openCreate
  rw [wp_bind]
  unfold wp
  rw [atomicCall_ok hw]
  simp only
  have go : ∀ w1 : World, w1.oracle = .ok :: rest → wp (do atomicCall (.file .lock p) id; if held then Act.throw .locked else pure ()) w1 (fun o w' => (o = .ok () ∧ w'.oracle = rest) ∨ ∃ e, o = .err e) := by
    intro w1 h1
    rw [wp_bind]
    unfold wp
    rw [atomicCall_ok h1]
    simp only
    cases held
    · exact .inl ⟨rfl, rfl⟩
    · exact .inr ⟨_, rfl⟩
  apply go
  cases w.fs p <;> rfl

theorem checkIfWritable_refused (D : DirEnv) (d : Path) (w : World) (k : Nat) (rest : List Choice) (hw : w.oracle = .err k :: rest) :
    wp (checkIfWritable D d) w (fun o w' => o = .ok false ∧ w'.fs = w.fs) := by
  unfold checkIfWritable
  rw [wp_bind, wp_attempt]
  refine wp_mono (newTempFile_refused d D.draws w k rest hw) ?_
  rintro o w' ⟨⟨e, rfl⟩, h⟩
  exact ⟨rfl, h⟩

/-- **C74**: if the directory exists and creating a file in it is refused (the first call after opening and locking the lock file), the update fails and nothing but the lock file is touched. -/
theorem C74_unwritable (confDir : Path) (held : Bool) (D : DirEnv) (args : UpdateArgs) (env : UpdEnv) (w : World) (k : Nat) (rest : List Choice) (hw : w.oracle = .ok :: .ok :: .err k :: rest)
    (h : ∀ d, InstallDir args D.home d → D.exists_ d = true) :
    (runUpdate confDir held D args env w).1 ≠ .ok () ∧ ∀ q, q ≠ confDir ++ "/client.lock".toList → (runUpdate confDir held D args env w).2.fs q = w.fs q := by
  have hlock := acquireLock_oracle (confDir ++ "/client.lock".toList) held w _ hw
  have htouch := acquireLock_touch (confDir ++ "/client.lock".toList) held w
  have key : wp (runUpdate confDir held D args env) w (fun o w' => o ≠ .ok () ∧ ∀ q, q ≠ confDir ++ "/client.lock".toList → w'.fs q = w.fs q) := by
    unfold runUpdate
    rw [wp_bind]
    unfold wp at hlock htouch ⊢
    generalize acquireLock (confDir ++ "/client.lock".toList) held w = x at hlock htouch ⊢
    obtain ⟨o, w1⟩ := x
    simp only at hlock htouch ⊢
    rcases hlock with ⟨rfl, ho⟩ | ⟨e, rfl⟩
    · simp only
      have hfs : ∀ q, q ≠ confDir ++ "/client.lock".toList → w1.fs q = w.fs q := fun q hq => htouch.fs q hq
      have hchoose : wp (chooseBinPath D args) w1 (fun o w' => (∃ e, o = .err e) ∧ w'.fs = w1.fs) := by
        have tryIt : ∀ d, wp (do if !(← checkIfWritable D d) then Act.throw .config else pure d) w1 (fun o w' => (∃ e, o = .err e) ∧ w'.fs = w1.fs) := by
          intro d
          rw [wp_bind]
          refine wp_mono (checkIfWritable_refused D d w1 k rest ho) ?_
          rintro o w' ⟨rfl, h⟩
          exact ⟨⟨_, rfl⟩, h⟩
        have valid : ∀ d, D.exists_ d = true → wp (validateDirPath D d) w1 (fun o w' => (∃ e, o = .err e) ∧ w'.fs = w1.fs) := by
          intro d hd
          unfold validateDirPath
          rw [if_neg (by simp [hd])]
          split
          · exact ⟨⟨_, rfl⟩, rfl⟩
          · exact tryIt d
        unfold chooseBinPath
        cases hb : args.binPath with
        | some p =>
          simp only
          split
          · exact ⟨⟨_, rfl⟩, rfl⟩
          · exact tryIt p
        | none =>
          simp only
          cases hs : args.server with
          | true => exact valid _ (h _ (by unfold InstallDir; rw [hb, hs]; rfl))
          | false =>
            cases hh : D.home with
            | none => exact ⟨⟨_, rfl⟩, rfl⟩
            | some hm => exact valid _ (h _ (by unfold InstallDir; rw [hb, hs]; exact ⟨hm, hh, home_bin hm⟩))
      show wp (do let u ← Updater.create D args; u.update env) w1 (fun o w' => o ≠ .ok () ∧ ∀ q, q ≠ confDir ++ "/client.lock".toList → w'.fs q = w.fs q)
      unfold Updater.create
      rw [wp_bind, wp_bind]
      refine wp_mono hchoose ?_
      rintro o w' ⟨⟨e, rfl⟩, hf⟩
      exact ⟨nofun, fun q hq => by rw [hf]; exact hfs q hq⟩
    · exact ⟨nofun, fun q hq => htouch.fs q hq⟩
  exact key

/-- The `update` command with its directory checks, for the installation of `C44`. -/
def exDirs : DirEnv := { exists_ := fun _ => true, isDir := fun _ => true, home := none, draws := ["abc".toList] }

def exArgs : UpdateArgs := { force := false, version := none, binPath := some "/b".toList, server := true }

/-- An update of the server side into `/b`: both binaries are replaced, the file by which writing was tried is gone again, the lock file has appeared. -/
example : (runUpdate "/c".toList false exDirs exArgs exUpdEnv (exUpdWorld [])).1 = .ok () ∧
    content (runUpdate "/c".toList false exDirs exArgs exUpdEnv (exUpdWorld [])).2 exSrvBin = some [7, 7, 7] ∧
    content (runUpdate "/c".toList false exDirs exArgs exUpdEnv (exUpdWorld [])).2 "/b/.tmpabc".toList = none ∧
    content (runUpdate "/c".toList false exDirs exArgs exUpdEnv (exUpdWorld [])).2 "/c/client.lock".toList = some [] := by decide +kernel

/-- The hypotheses of `C74_unwritable`: `/b` exists, the call is refused; nothing is created there. -/
example : (runUpdate "/c".toList false exDirs exArgs exUpdEnv (exUpdWorld [.ok, .ok, .err 0])).1 = .err .config ∧
    content (runUpdate "/c".toList false exDirs exArgs exUpdEnv (exUpdWorld [.ok, .ok, .err 0])).2 exSrvBin = content (exUpdWorld []) exSrvBin ∧
    ∀ d, InstallDir exArgs exDirs.home d → exDirs.exists_ d = true := ⟨by decide +kernel, by decide +kernel, fun _ _ => rfl⟩

/-- The hypothesis of `C74_only_there` for another file of the directory. -/
example : ¬ MayChange "/c".toList exDirs exArgs (exUpdWorld []) "/b/other".toList := by
  rintro (h | ⟨d, rfl, ⟨⟨x, hx, h⟩, _⟩ | ⟨b, hb, h⟩⟩)
  · exact absurd h (by decide +kernel)
  · simp only [exDirs, List.mem_singleton] at hx
    subst hx
    exact absurd h (by decide +kernel)
  · have key : ∀ b ∈ Spec.binaries true, "/b/other".toList ≠ "/b".toList ++ "/".toList ++ b.1.toList ∧ "/b/other".toList ≠ "/b".toList ++ "/".toList ++ b.1.toList ++ ".old".toList ∧
        ¬ "/b".toList ++ "/".toList ++ b.1.toList <+: "/b/other".toList := by decide +kernel
    obtain ⟨k1, k2, k3⟩ := key b hb
    rcases h with h | h | h
    · exact k1 h
    · exact k2 h
    · obtain ⟨n, h⟩ := h
      exact k3 ⟨_, h.symm⟩

/-- A requested directory that does not exist: `C74_unusable` applies. -/
example : ∀ d, InstallDir exArgs none d → Unusable exArgs { exDirs with exists_ := fun _ => false } d := by
  rintro d rfl
  exact Or.inr ⟨rfl, rfl⟩

/-! ## C75 -/

/-- **C75**, proved part: if signatures can not be forged, every binary installed by a successful update was made and signed by the makers. Missing: that it was made as *that* binary of
*that* release, see `C75_old_binary_under_new_tag`. -/
theorem C75_signed_partial (made : Made) (u : Updater) (env : UpdEnv) (w : World) (hu : Unforgeable made env) (hn : ¬ UpToDate u env) (hok : (u.update env w).1 = .ok ())
    (i : Nat) (t : Target) (ht : u.targets[i]? = some t) : ∃ f, (u.update env w).2.fs (u.binPath ++ "/".toList ++ t.name) = some f ∧ ∃ pfx tag, made pfx tag f.data := by
  obtain ⟨r, _, _, hin⟩ := C43_success u env w hok hn
  obtain ⟨f, hf, ⟨_, _, sig, _, _, _, _, hv⟩, _⟩ := hin i t ht
  refine ⟨f, ?_, hu _ _ hv⟩
  rw [List.append_assoc]
  exact hf

/-- The makers made one server binary, for v0.3.0, and a commander for every release. -/
def exMade : Made := fun pfx tag bytes => (pfx = "server".toList ∧ tag = "v0.3.0".toList ∧ bytes = [7, 7, 7]) ∨ (pfx = "commander".toList ∧ bytes = [7, 7, 7])

/-- **C75 is false as stated**: the signature covers the bytes of the binary only, neither its name nor its version. Whoever can change what is offered for download, without the signing
key, can have an old binary installed as the latest release (the check of C45 sees the tag only). -/
theorem C75_old_binary_under_new_tag : ∃ (made : Made) (u : Updater) (env : UpdEnv) (w : World), Unforgeable made env ∧ u.force = false ∧ u.version = none ∧
    (u.update env w).1 = .ok () ∧ env.current = "v0.5.0".toList ∧ ∃ f r, ChosenRelease env none r ∧ r.tag = "v0.6.0".toList ∧
      (u.update env w).2.fs (u.binPath ++ "/ruroco-server".toList) = some f ∧ ∀ tag, made "server".toList tag f.data → tag = "v0.3.0".toList := by
  refine ⟨exMade, exUpdater, { exUpdEnv with verify := fun b s => b == [7, 7, 7] && s == [1] }, exUpdWorld [], ?_, rfl, rfl, by decide +kernel, rfl,
    ⟨[7, 7, 7], 0o500, true, ⟨"ruroco".toList, "ruroco".toList⟩⟩, ⟨"v0.6.0".toList, exAssets "v0.6.0", false⟩, ⟨_, rfl, [⟨"v0.7.0".toList, [], true⟩], [⟨"v0.5.0".toList, [], false⟩], rfl, rfl, by simp⟩, rfl,
    by decide +kernel, ?_⟩
  · intro b s h
    simp only [Bool.and_eq_true, beq_iff_eq] at h
    exact ⟨"server".toList, "v0.3.0".toList, Or.inl ⟨rfl, rfl, h.1⟩⟩
  · rintro tag (⟨_, h, _⟩ | ⟨h, _⟩)
    · exact h
    · exact absurd h (by decide +kernel)

end Ruroco
