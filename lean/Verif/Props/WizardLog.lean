import Verif.Props.WizardExact
import Verif.Props.UpdateLog
import Verif.Spec.WizardLog

/-!
# C128: what the wizard says is so
-/

namespace Ruroco

open Spec (announced announcements)

theorem wtell_mute_bind (m : WTell α) (f : α → WTell β) : (m >>= f).mute = m.mute >>= fun a => (f a).mute := by
  funext w
  simp only [WTell.mute, bind, WTell.bind, Act.bind]
  rcases m w with ⟨o, w', l⟩
  cases o <;> rfl

theorem wtell_mute_lift (m : Act α) : (WTell.lift m).mute = m := rfl

theorem wtell_mute_embed (m : Tell α) : (WTell.embed m).mute = m.mute := rfl

theorem wtell_mute_said (l : WizLine) (k : WTell α) : (WTell.say l >>= fun _ => k).mute = k.mute := rfl

theorem mute_writeData (p : Path) (d : List Byte) : (writeDataT p d).mute = writeData p d := rfl

theorem mute_initFile (h : WizLine) (p : Path) (t : List Byte) : (initFileT h p t).mute = initFile p t := by
  unfold initFileT
  rw [wtell_mute_said, wtell_mute_bind, wtell_mute_lift]
  unfold initFile
  congr 1
  funext b
  cases b with
  | true => rfl
  | false =>
    show WTell.mute (writeDataT p t >>= fun _ => WTell.lift (setPermissions p 0o600)) = _
    rw [wtell_mute_bind]
    rfl

theorem mute_createUser (c : Option Nat) : (createRurocoUserT c).mute = createRurocoUser c := by
  unfold createRurocoUserT createRurocoUser
  rw [wtell_mute_said, wtell_mute_bind, wtell_mute_lift]
  congr 1
  funext _
  split
  · rfl
  · split <;> rfl

theorem mute_systemctl (h : WizLine) (args : List (List Char)) (b : Bool) : (systemctlT h args b).mute = systemctl args b := rfl

theorem mute_wizardUpdate (env : WizEnv) : (wizardUpdateT env).mute = wizardUpdate env := by
  unfold wizardUpdateT wizardUpdate
  rw [wtell_mute_said, wtell_mute_bind, wtell_mute_lift]
  congr 1
  funext u
  rw [wtell_mute_embed, C127_same_update]

/-- **C128.** The wizard with its lines does exactly what the wizard of `Model/Wizard` does: same result, same effects, same trace. -/
theorem C128_same_run (env : WizEnv) : (wizardRunT env).mute = wizardRun env := by
  unfold wizardRunT wizardRun
  simp only [wtell_mute_bind, mute_createUser, mute_wizardUpdate, mute_writeData, mute_initFile, mute_systemctl]
  congr 1; funext _
  congr 1; funext _
  congr 1; funext _
  congr 1; funext _
  congr 1; funext _
  congr 1; funext _
  congr 1; funext _
  congr 1; funext _
  congr 1; funext _
  funext w
  simp only [bind, Act.bind]
  rcases systemctl ("start".toList :: units) env.start w with ⟨o, w'⟩
  cases o <;> rfl

/-! ## The steps -/

/-- One step after another. -/
def runSteps : List (WTell Unit) → WTell Unit → WTell Unit
  | [], fin => fin
  | m :: ms, fin => m >>= fun _ => runSteps ms fin

def wizardSteps (env : WizEnv) : List (WizLine × WTell Unit) :=
  [(.creatingUser, createRurocoUserT env.useradd), (.updating, wizardUpdateT env), (.creating RUROCO_SERVICE_FILE_PATH, writeDataT RUROCO_SERVICE_FILE_PATH env.ruroco),
    (.creating COMMANDER_SERVICE_FILE_PATH, writeDataT COMMANDER_SERVICE_FILE_PATH env.commander), (.creating SOCKET_FILE_PATH, writeDataT SOCKET_FILE_PATH env.socket),
    (.initConfig, initFileT .initConfig CONFIG_TOML_PATH env.config), (.initCommands, initFileT .initCommands COMMANDS_TOML_PATH env.commands),
    (.reloading, systemctlT .reloading ["daemon-reload".toList] env.reload), (.enabling, systemctlT .enabling ("enable".toList :: units) env.enable),
    (.starting, systemctlT .starting ("start".toList :: units) env.start)]

theorem wizardRunT_steps (env : WizEnv) : wizardRunT env = runSteps ((wizardSteps env).map Prod.snd) (WTell.say .installed) := by
  unfold wizardRunT wizardSteps
  simp only [List.map_cons, List.map_nil, runSteps]

/-- What an action writes, in every state, is the line `h` and then lines of the kind `K`. -/
def Says (h : WizLine) (K : WizLine → Prop) (m : WTell α) : Prop := ∀ w, ∃ ls, (m w).2.2 = h :: ls ∧ ∀ x ∈ ls, K x

theorem says_create (c : Option Nat) : Says .creatingUser (fun x => x = .userExists ∧ c = some 9) (createRurocoUserT c) := by
  intro w
  unfold createRurocoUserT
  split
  · exact ⟨[.userExists], rfl, fun x hx => ⟨List.mem_singleton.1 hx, ‹_›⟩⟩
  · split
    · exact ⟨[], rfl, fun x hx => by cases hx⟩
    · exact ⟨[], rfl, fun x hx => by cases hx⟩

theorem says_update (env : WizEnv) : Says .updating (fun x => ∃ l, x = .upd l) (wizardUpdateT env) := by
  intro w
  unfold wizardUpdateT
  show ∃ ls, [WizLine.updating] ++ (WTell.bind (WTell.lift (Updater.create env.dirs wizardArgs)) (fun u => WTell.embed (u.updateT env.upd)) w).2.2 = _ ∧ _
  refine ⟨_, rfl, fun x hx => ?_⟩
  unfold WTell.bind WTell.lift at hx
  rcases h : Updater.create env.dirs wizardArgs w with ⟨o, w'⟩
  rw [h] at hx
  cases o with
  | ok u =>
    have hx : x ∈ ((u.updateT env.upd) w').2.2.map WizLine.upd := hx
    obtain ⟨l, _, e⟩ := List.mem_map.1 hx
    exact ⟨l, e.symm⟩
  | err e => cases hx
  | crash => cases hx

theorem says_writeData (p : Path) (d : List Byte) : Says (.creating p) (fun _ => False) (writeDataT p d) := fun _ => ⟨[], rfl, fun x hx => by cases hx⟩

theorem says_systemctl (h : WizLine) (args : List (List Char)) (b : Bool) : Says h (fun _ => False) (systemctlT h args b) := fun _ => ⟨[], rfl, fun x hx => by cases hx⟩

/-- A file is reported as being created only if it was not there, or looking for it failed. -/
theorem says_initFile_at (h : WizLine) (p : Path) (t : List Byte) (w : World) : ∃ ls, (initFileT h p t w).2.2 = h :: ls ∧
    ∀ x ∈ ls, x = .creating p ∧ (w.fs p = none ∨ .statFailed p ∈ (initFileT h p t w).2.1.log) := by
  have hlog : (pathExists p w).2.log <+: (initFileT h p t w).2.1.log := by
    have e : (initFileT h p t w).2.1 = (initFile p t w).2 := congrArg Prod.snd (congrFun (mute_initFile h p t) w)
    rw [e]
    unfold initFile
    show _ <+: (Act.bind (pathExists p) _ w).2.log
    unfold Act.bind
    rcases pathExists p w with ⟨o, w1⟩
    cases o with
    | err _ => exact List.prefix_refl _
    | crash => exact List.prefix_refl _
    | ok b =>
      have hs := fun v => (setPermissions_spec p 0o600 v).1.log
      cases b with
      | true => exact hs w1
      | false =>
        show w1.log <+: (Act.bind (writeData p t) (fun _ => setPermissions p 0o600) w1).2.log
        have h1 : w1.log <+: (writeData p t w1).2.log := (writeData_spec p t w1).1.log
        unfold Act.bind
        rcases hd : writeData p t w1 with ⟨o, w2⟩
        rw [hd] at h1
        cases o with
        | ok _ => exact h1.trans (hs w2)
        | err _ => exact h1
        | crash => exact h1
  have hp := pathExists_exact p w
  unfold wp at hp
  have key : ∃ ls, (initFileT h p t w).2.2 = h :: ls ∧ ∀ x ∈ ls, x = .creating p ∧ (pathExists p w).1 = .ok false := by
    unfold initFileT
    show ∃ ls, [h] ++ (WTell.bind (WTell.lift (pathExists p)) _ w).2.2 = _ ∧ _
    refine ⟨_, rfl, fun x hx => ?_⟩
    unfold WTell.bind WTell.lift at hx
    rcases hq : pathExists p w with ⟨o, w1⟩
    rw [hq] at hx
    cases o with
    | err _ => cases hx
    | crash => cases hx
    | ok b =>
      cases b with
      | true => cases hx
      | false =>
        refine ⟨?_, rfl⟩
        have hx : x ∈ (WTell.bind (writeDataT p t) (fun _ => WTell.lift (setPermissions p 0o600)) w1).2.2 := hx
        unfold WTell.bind at hx
        obtain ⟨l2, e2, n2⟩ := says_writeData p t w1
        rcases hd : writeDataT p t w1 with ⟨o, w2, l⟩
        rw [hd] at hx e2
        have hl : l = [.creating p] := by
          cases l2 with
          | nil => exact e2
          | cons a as => exact absurd (List.mem_cons_self ..) (n2 a)
        cases o with
        | ok _ =>
          have hx : x ∈ l ++ [] := hx
          rw [List.append_nil, hl] at hx
          exact List.mem_singleton.1 hx
        | err _ =>
          have hx : x ∈ l := hx
          rw [hl] at hx
          exact List.mem_singleton.1 hx
        | crash =>
          have hx : x ∈ l := hx
          rw [hl] at hx
          exact List.mem_singleton.1 hx
  obtain ⟨ls, h1, h2⟩ := key
  refine ⟨ls, h1, fun x hx => ?_⟩
  obtain ⟨h3, h4⟩ := h2 x hx
  refine ⟨h3, ?_⟩
  rcases hp.2 with ⟨ho, _⟩ | ⟨_, hl⟩ | ho
  · rw [h4] at ho
    cases hf : w.fs p with
    | none => exact .inl rfl
    | some f => rw [hf] at ho; cases ho
  · refine .inr (hlog.subset ?_)
    rw [hl]
    simp
  · rw [h4] at ho
    cases ho

theorem says_initFile (h : WizLine) (p : Path) (t : List Byte) : Says h (fun x => x = .creating p) (initFileT h p t) := by
  intro w
  obtain ⟨ls, h1, h2⟩ := says_initFile_at h p t w
  exact ⟨ls, h1, fun x hx => (h2 x hx).1⟩

/-- Each step announces itself, and says nothing else that would announce a step. -/
theorem step_announced (env : WizEnv) : ∀ s ∈ wizardSteps env, ∀ w, announced (s.2 w).2.2 = [s.1] := by
  have aux : ∀ {h : WizLine} {K : WizLine → Prop} {m : WTell Unit}, Says h K m → h ∈ announcements → (∀ x, K x → x ∉ announcements) → ∀ w, announced (m w).2.2 = [h] := by
    intro h K m hs hh hk w
    obtain ⟨ls, e, hl⟩ := hs w
    rw [e]
    unfold announced
    rw [List.filter_cons_of_pos (by exact decide_eq_true hh), List.filter_eq_nil_iff.2]
    intro x hx
    simp only [decide_eq_true_eq]
    exact hk x (hl x hx)
  have hu : ∀ l, WizLine.upd l ∉ announcements := by
    intro l hm
    unfold announcements at hm
    simp at hm
  intro s hs
  unfold wizardSteps at hs
  simp only [List.mem_cons, List.not_mem_nil, or_false] at hs
  rcases hs with rfl | rfl | rfl | rfl | rfl | rfl | rfl | rfl | rfl | rfl
  · exact aux (says_create _) (by dsimp only; decide) (by rintro x ⟨rfl, _⟩; decide)
  · exact aux (says_update _) (by dsimp only; decide) (by rintro x ⟨l, rfl⟩; exact hu l)
  · exact aux (says_writeData _ _) (by dsimp only; decide) (fun _ h => h.elim)
  · exact aux (says_writeData _ _) (by dsimp only; decide) (fun _ h => h.elim)
  · exact aux (says_writeData _ _) (by dsimp only; decide) (fun _ h => h.elim)
  · exact aux (says_initFile _ _ _) (by dsimp only; decide) (by rintro x rfl; decide)
  · exact aux (says_initFile _ _ _) (by dsimp only; decide) (by rintro x rfl; decide)
  · exact aux (says_systemctl _ _ _) (by dsimp only; decide) (fun _ h => h.elim)
  · exact aux (says_systemctl _ _ _) (by dsimp only; decide) (fun _ h => h.elim)
  · exact aux (says_systemctl _ _ _) (by dsimp only; decide) (fun _ h => h.elim)

theorem announced_append (a b : List WizLine) : announced (a ++ b) = announced a ++ announced b := List.filter_append ..

/-- Either all steps succeed, or one does not and is the last that was announced. -/
theorem runSteps_cases (L : List (WizLine × WTell Unit)) (hL : ∀ s ∈ L, ∀ w, announced (s.2 w).2.2 = [s.1]) (w : World) :
    ((runSteps (L.map Prod.snd) (WTell.say .installed) w).1 = .ok () ∧ announced (runSteps (L.map Prod.snd) (WTell.say .installed) w).2.2 = L.map Prod.fst ++ [.installed]) ∨
    ∃ pre s post w', L = pre ++ s :: post ∧ announced (runSteps (L.map Prod.snd) (WTell.say .installed) w).2.2 = pre.map Prod.fst ++ [s.1] ∧
      (runSteps (L.map Prod.snd) (WTell.say .installed) w).1 = (s.2 w').1 ∧ (s.2 w').1 ≠ .ok () := by
  induction L generalizing w with
  | nil => exact .inl ⟨rfl, rfl⟩
  | cons s L ih =>
    have hs := hL s (List.mem_cons_self ..) w
    show (((WTell.bind s.2 (fun _ => runSteps (L.map Prod.snd) (WTell.say .installed))) w).1 = _ ∧ announced ((WTell.bind s.2 (fun _ => runSteps (L.map Prod.snd) (WTell.say .installed))) w).2.2 = _) ∨
      ∃ pre s' post w', _ ∧ announced ((WTell.bind s.2 (fun _ => runSteps (L.map Prod.snd) (WTell.say .installed))) w).2.2 = _ ∧
        ((WTell.bind s.2 (fun _ => runSteps (L.map Prod.snd) (WTell.say .installed))) w).1 = _ ∧ _
    unfold WTell.bind
    rcases h : s.2 w with ⟨o, w1, l⟩
    rw [h] at hs
    have hs : announced l = [s.1] := hs
    cases o with
    | err e => exact .inr ⟨[], s, L, w, rfl, hs, by rw [h], by rw [h]; intro h; cases h⟩
    | crash => exact .inr ⟨[], s, L, w, rfl, hs, by rw [h], by rw [h]; intro h; cases h⟩
    | ok _ =>
      simp only [announced_append, hs]
      rcases ih (fun s hs => hL s (List.mem_cons_of_mem _ hs)) w1 with ⟨h1, h2⟩ | ⟨pre, s', post, w', h1, h2, h3⟩
      · refine .inl ⟨h1, ?_⟩
        rw [h2]
        rfl
      · refine .inr ⟨s :: pre, s', post, w', by rw [h1]; rfl, ?_, h3⟩
        rw [h2]
        rfl

theorem wizard_out (env : WizEnv) (w : World) : (wizardRunT env w).1 = (wizardRun env w).1 := congrArg Prod.fst (congrFun (C128_same_run env) w)

theorem wizard_world (env : WizEnv) (w : World) : (wizardRunT env w).2.1 = (wizardRun env w).2 := congrArg Prod.snd (congrFun (C128_same_run env) w)

theorem wizard_heads (env : WizEnv) : (wizardSteps env).map Prod.fst ++ [.installed] = announcements := by
  unfold wizardSteps announcements RUROCO_SERVICE_FILE_PATH COMMANDER_SERVICE_FILE_PATH SOCKET_FILE_PATH
  rfl

/-- **C128.** The steps the wizard announces are the first ones of the list, in its order and without a gap; all of them exactly if it succeeds. -/
theorem C128_steps (env : WizEnv) (w : World) : announced (wizardRunT env w).2.2 <+: announcements ∧ (announced (wizardRunT env w).2.2 = announcements ↔ (wizardRun env w).1 = .ok ()) := by
  rw [← wizard_out, wizardRunT_steps]
  rcases runSteps_cases (wizardSteps env) (step_announced env) w with ⟨h1, h2⟩ | ⟨pre, s, post, w', h1, h2, h3, h4⟩
  · rw [h2, wizard_heads]
    exact ⟨List.prefix_refl _, fun _ => h1, fun _ => rfl⟩
  · rw [h2, ← wizard_heads env, h1]
    refine ⟨⟨post.map Prod.fst ++ [.installed], by simp⟩, fun h => ?_, fun h => by rw [← h1] at h; exact absurd (h3.symm.trans h) h4⟩
    have := congrArg List.length h
    simp at this

/-- **C128.** "Ruroco Server Side installed successfully" is written exactly if the wizard succeeds. -/
theorem C128_installed_iff (env : WizEnv) (w : World) : .installed ∈ (wizardRunT env w).2.2 ↔ (wizardRun env w).1 = .ok () := by
  rw [← (C128_steps env w).2]
  have hm : .installed ∈ (wizardRunT env w).2.2 ↔ .installed ∈ announced (wizardRunT env w).2.2 := by
    unfold announced
    rw [List.mem_filter]
    exact ⟨fun h => ⟨h, by decide⟩, fun h => h.1⟩
  rw [hm]
  constructor
  · intro h
    obtain ⟨t, ht⟩ := (C128_steps env w).1
    cases t with
    | nil => rw [List.append_nil] at ht; exact ht
    | cons a t =>
      exfalso
      generalize announced (wizardRunT env w).2.2 = l at h ht
      have hl : announcements.dropLast = l ++ (a :: t).dropLast := by
        rw [← ht, List.dropLast_append_of_ne_nil (by simp)]
      have : WizLine.installed ∈ announcements.dropLast := by
        rw [hl]
        exact List.mem_append_left _ h
      revert this
      decide
  · intro h
    rw [h]
    decide

/-- **C128.** ... and then the user exists, the verified binaries, unit files and configuration are in place, and systemd has reloaded, enabled and started the services. -/
theorem C128_installed (env : WizEnv) (w : World) (h : .installed ∈ (wizardRunT env w).2.2) :
    (env.useradd = some 0 ∨ env.useradd = some 9) ∧ Spec.ServerSide env (wizardRun env w).2 ∧ env.reload = true ∧ env.enable = true ∧ env.start = true := by
  have hok := (C128_installed_iff env w).1 h
  obtain ⟨h1, h2⟩ := C42_success_means_started env w hok
  exact ⟨h1, ((C88_programs env w).2 hok).1, h2⟩

/-- **C128.** If the wizard does not succeed, the step that was announced last is the one that went wrong: if it is one of the four programs, that program failed. -/
theorem C128_stopped (env : WizEnv) (w : World) (h : (wizardRun env w).1 ≠ .ok ()) : ∃ x, (announced (wizardRunT env w).2.2).getLast? = some x ∧ x ≠ .installed ∧
    (x = .creatingUser → env.useradd ≠ some 0 ∧ env.useradd ≠ some 9) ∧ (x = .reloading → env.reload = false) ∧ (x = .enabling → env.enable = false) ∧
    (x = .starting → env.start = false) := by
  rw [← wizard_out, wizardRunT_steps] at h
  rw [wizardRunT_steps]
  rcases runSteps_cases (wizardSteps env) (step_announced env) w with ⟨h1, _⟩ | ⟨pre, s, post, w', h1, h2, _, h4⟩
  · exact absurd h1 h
  · refine ⟨s.1, by rw [h2, List.getLast?_concat], ?_⟩
    have hs : s ∈ wizardSteps env := by rw [h1]; simp
    have sys : ∀ {hd args b}, (systemctlT hd args b w').1 ≠ .ok () → b = false := by
      intro hd args b hb
      cases b
      · rfl
      · exact absurd rfl hb
    unfold wizardSteps at hs
    simp only [List.mem_cons, List.not_mem_nil, or_false] at hs
    rcases hs with rfl | rfl | rfl | rfl | rfl | rfl | rfl | rfl | rfl | rfl
    · refine ⟨nofun, fun _ => ⟨fun hc => h4 ?_, fun hc => h4 ?_⟩, nofun, nofun, nofun⟩
      · show (createRurocoUserT env.useradd w').1 = _
        rw [hc]; rfl
      · show (createRurocoUserT env.useradd w').1 = _
        rw [hc]; rfl
    · exact ⟨nofun, nofun, nofun, nofun, nofun⟩
    · exact ⟨nofun, nofun, nofun, nofun, nofun⟩
    · exact ⟨nofun, nofun, nofun, nofun, nofun⟩
    · exact ⟨nofun, nofun, nofun, nofun, nofun⟩
    · exact ⟨nofun, nofun, nofun, nofun, nofun⟩
    · exact ⟨nofun, nofun, nofun, nofun, nofun⟩
    · exact ⟨nofun, nofun, fun _ => sys h4, nofun, nofun⟩
    · exact ⟨nofun, nofun, nofun, fun _ => sys h4, nofun⟩
    · exact ⟨nofun, nofun, nofun, nofun, fun _ => sys h4⟩

/-! ## Lines within a step -/

/-- A line that only one step can write was written by that step, in a state reached by the steps before it. -/
theorem said_by {x : WizLine} {p : Path} (as : List (WTell Unit)) (b : WTell Unit) (cs : List (WTell Unit)) (fin : WTell Unit)
    (ha : ∀ m ∈ as, Apart p m.mute ∧ ∀ w, x ∉ (m w).2.2) (hc : ∀ m ∈ cs, (∀ w, w.log <+: (m w).2.1.log) ∧ ∀ w, x ∉ (m w).2.2)
    (hf : ∀ w, (fin w).2.1 = w ∧ x ∉ (fin w).2.2) (w : World) (h : x ∈ (runSteps (as ++ b :: cs) fin w).2.2) :
    ∃ w', w'.fs p = w.fs p ∧ x ∈ (b w').2.2 ∧ (b w').2.1.log <+: (runSteps (as ++ b :: cs) fin w).2.1.log := by
  have tail : ∀ (cs : List (WTell Unit)), (∀ m ∈ cs, (∀ w, w.log <+: (m w).2.1.log) ∧ ∀ w, x ∉ (m w).2.2) → ∀ w, x ∉ (runSteps cs fin w).2.2 ∧ w.log <+: (runSteps cs fin w).2.1.log := by
    intro cs
    induction cs with
    | nil => exact fun _ w => ⟨(hf w).2, by show w.log <+: (fin w).2.1.log; rw [(hf w).1]; exact List.prefix_refl _⟩
    | cons m cs ih =>
      intro hc w
      obtain ⟨h1, h2⟩ := hc m (List.mem_cons_self ..)
      have ih := ih (fun m hm => hc m (List.mem_cons_of_mem _ hm))
      show x ∉ (WTell.bind m (fun _ => runSteps cs fin) w).2.2 ∧ _ <+: (WTell.bind m (fun _ => runSteps cs fin) w).2.1.log
      have h1 := h1 w
      have h2 := h2 w
      unfold WTell.bind
      rcases hm : m w with ⟨o, w1, l⟩
      rw [hm] at h1 h2
      cases o with
      | ok _ => exact ⟨fun hx => (List.mem_append.1 hx).elim h2 (ih w1).1, h1.trans (ih w1).2⟩
      | err _ => exact ⟨h2, h1⟩
      | crash => exact ⟨h2, h1⟩
  induction as generalizing w with
  | nil =>
    refine ⟨w, rfl, ?_⟩
    have h : x ∈ (WTell.bind b (fun _ => runSteps cs fin) w).2.2 := h
    show _ ∧ _ <+: (WTell.bind b (fun _ => runSteps cs fin) w).2.1.log
    unfold WTell.bind at h ⊢
    rcases hm : b w with ⟨o, w1, l⟩
    rw [hm] at h
    cases o with
    | ok _ => exact ⟨(List.mem_append.1 h).elim id (fun h => absurd h (tail cs hc w1).1), (tail cs hc w1).2⟩
    | err _ => exact ⟨h, List.prefix_refl _⟩
    | crash => exact ⟨h, List.prefix_refl _⟩
  | cons m as ih =>
    obtain ⟨h1, h2⟩ := ha m (List.mem_cons_self ..)
    have h : x ∈ (WTell.bind m (fun _ => runSteps (as ++ b :: cs) fin) w).2.2 := h
    show ∃ w', _ ∧ _ ∧ _ <+: (WTell.bind m (fun _ => runSteps (as ++ b :: cs) fin) w).2.1.log
    have h2 := h2 w
    have h1 : (m w).2.1.fs p = w.fs p := (h1 w).1
    unfold WTell.bind at h ⊢
    rcases hm : m w with ⟨o, w1, l⟩
    rw [hm] at h h1 h2
    cases o with
    | ok _ =>
      have h := (List.mem_append.1 h).resolve_left h2
      obtain ⟨w', h3, h4⟩ := ih (fun m hm => ha m (List.mem_cons_of_mem _ hm)) w1 h
      exact ⟨w', h3.trans h1, h4⟩
    | err _ => exact absurd h h2
    | crash => exact absurd h h2

theorem says_not {h : WizLine} {K : WizLine → Prop} {m : WTell α} (hs : Says h K m) {x : WizLine} (hx : x ≠ h) (hk : ¬ K x) : ∀ w, x ∉ (m w).2.2 := by
  intro w hm
  obtain ⟨ls, e, hl⟩ := hs w
  rw [e] at hm
  rcases List.mem_cons.1 hm with rfl | hm
  · exact hx rfl
  · exact hk (hl x hm)

theorem apart_mute {p : Path} {m : WTell Unit} {a : Act Unit} (e : m.mute = a) (h : Apart p a) : Apart p m.mute := e ▸ h

theorem log_mute {p : Path} {m : WTell Unit} {a : Act Unit} (e : m.mute = a) (h : Apart p a) : ∀ w, w.log <+: (m w).2.1.log := by
  intro w
  have : (m w).2.1 = (a w).2 := congrArg Prod.snd (congrFun e w)
  rw [this]
  exact h.log w

/-- **C128.** The wizard says that it creates the configuration, or the file of commands, only if the file was not there before, or looking for it failed: an existing file is
never said to be created. -/
theorem C128_creating_new (env : WizEnv) (w : World) (p : Path) (hp : p = "/etc/ruroco/config.toml".toList ∨ p = "/etc/ruroco/commands.toml".toList)
    (h : .creating p ∈ (wizardRunT env w).2.2) : w.fs p = none ∨ .statFailed p ∈ (wizardRun env w).2.log := by
  rw [← wizard_world]
  have hne : ∀ {q r : Path}, q ≠ r → WizLine.creating q ≠ .creating r := fun h e => h (WizLine.creating.inj e)
  have fin : ∀ (x : WizLine), x ≠ .installed → ∀ w, (WTell.say .installed w).2.1 = w ∧ x ∉ (WTell.say .installed w).2.2 :=
    fun x hx w => ⟨rfl, fun h => hx (List.mem_singleton.1 h)⟩
  have first : ∀ (p : Path), p = CONFIG_TOML_PATH ∨ p = COMMANDS_TOML_PATH → ∀ m ∈ [createRurocoUserT env.useradd, wizardUpdateT env, writeDataT RUROCO_SERVICE_FILE_PATH env.ruroco,
      writeDataT COMMANDER_SERVICE_FILE_PATH env.commander, writeDataT SOCKET_FILE_PATH env.socket], Apart p m.mute ∧ ∀ w, WizLine.creating p ∉ (m w).2.2 := by
    intro p hp m hm
    have n1 : p ≠ RUROCO_SERVICE_FILE_PATH := by rcases hp with rfl | rfl <;> decide
    have n2 : p ≠ COMMANDER_SERVICE_FILE_PATH := by rcases hp with rfl | rfl <;> decide
    have n3 : p ≠ SOCKET_FILE_PATH := by rcases hp with rfl | rfl <;> decide
    have n4 : ¬ "/usr/local/bin/".toList <+: p := by rcases hp with rfl | rfl <;> decide
    simp only [List.mem_cons, List.not_mem_nil, or_false] at hm
    rcases hm with rfl | rfl | rfl | rfl | rfl
    · exact ⟨apart_mute (mute_createUser _) (apart_createUser _), says_not (says_create _) nofun (fun h => by cases h.1)⟩
    · exact ⟨apart_mute (mute_wizardUpdate _) (apart_wizardUpdate n4 env), says_not (says_update _) nofun (fun ⟨_, h⟩ => by cases h)⟩
    · exact ⟨apart_mute (mute_writeData _ _) (apart_writeData n1 _), says_not (says_writeData _ _) (hne n1) id⟩
    · exact ⟨apart_mute (mute_writeData _ _) (apart_writeData n2 _), says_not (says_writeData _ _) (hne n2) id⟩
    · exact ⟨apart_mute (mute_writeData _ _) (apart_writeData n3 _), says_not (says_writeData _ _) (hne n3) id⟩
  have last : ∀ (p : Path), ∀ m ∈ [systemctlT .reloading ["daemon-reload".toList] env.reload, systemctlT .enabling ("enable".toList :: units) env.enable,
      systemctlT .starting ("start".toList :: units) env.start], (∀ w, w.log <+: (m w).2.1.log) ∧ ∀ w, WizLine.creating p ∉ (m w).2.2 := by
    intro p m hm
    simp only [List.mem_cons, List.not_mem_nil, or_false] at hm
    rcases hm with rfl | rfl | rfl
    · exact ⟨log_mute (p := p) (mute_systemctl _ _ _) (apart_systemctl _ _), says_not (says_systemctl _ _ _) nofun id⟩
    · exact ⟨log_mute (p := p) (mute_systemctl _ _ _) (apart_systemctl _ _), says_not (says_systemctl _ _ _) nofun id⟩
    · exact ⟨log_mute (p := p) (mute_systemctl _ _ _) (apart_systemctl _ _), says_not (says_systemctl _ _ _) nofun id⟩
  have fin' : ∀ {hd : WizLine} {t : List Byte} {w w' : World} {lg : List Event}, w'.fs p = w.fs p → (hd ≠ .creating p) → .creating p ∈ (initFileT hd p t w').2.2 →
      (initFileT hd p t w').2.1.log <+: lg → w.fs p = none ∨ .statFailed p ∈ lg := by
    intro hd t w w' lg h1 h2 h3 h4
    obtain ⟨ls, e, hl⟩ := says_initFile_at hd p t w'
    rw [e] at h3
    rcases List.mem_cons.1 h3 with h3 | h3
    · exact absurd h3.symm h2
    · rcases (hl _ h3).2 with h5 | h5
      · exact .inl (h1.symm.trans h5)
      · exact .inr (h4.subset h5)
  rcases hp with rfl | rfl
  · obtain ⟨w', h1, h2, h3⟩ := said_by (p := CONFIG_TOML_PATH) _ (initFileT .initConfig CONFIG_TOML_PATH env.config)
      (initFileT .initCommands COMMANDS_TOML_PATH env.commands :: [systemctlT .reloading ["daemon-reload".toList] env.reload, systemctlT .enabling ("enable".toList :: units) env.enable,
      systemctlT .starting ("start".toList :: units) env.start]) (WTell.say .installed) (first CONFIG_TOML_PATH (.inl rfl)) (fun m hm => by
        rcases List.mem_cons.1 hm with rfl | hm
        · exact ⟨log_mute (p := CONFIG_TOML_PATH) (mute_initFile _ _ _) (apart_initFile (by decide) _), says_not (says_initFile _ _ _) nofun (hne (by decide))⟩
        · exact last CONFIG_TOML_PATH m hm) (fin _ nofun) w h
    exact fin' (hd := .initConfig) h1 nofun h2 h3
  · obtain ⟨w', h1, h2, h3⟩ := said_by (p := COMMANDS_TOML_PATH) ([createRurocoUserT env.useradd, wizardUpdateT env, writeDataT RUROCO_SERVICE_FILE_PATH env.ruroco,
      writeDataT COMMANDER_SERVICE_FILE_PATH env.commander, writeDataT SOCKET_FILE_PATH env.socket] ++ [initFileT .initConfig CONFIG_TOML_PATH env.config])
      (initFileT .initCommands COMMANDS_TOML_PATH env.commands) [systemctlT .reloading ["daemon-reload".toList] env.reload, systemctlT .enabling ("enable".toList :: units) env.enable,
      systemctlT .starting ("start".toList :: units) env.start] (WTell.say .installed) (fun m hm => by
        rcases List.mem_append.1 hm with hm | hm
        · exact first COMMANDS_TOML_PATH (.inr rfl) m hm
        · cases List.mem_singleton.1 hm
          exact ⟨apart_mute (mute_initFile _ _ _) (apart_initFile (by decide) _), says_not (says_initFile _ _ _) nofun (hne (by decide))⟩) (last COMMANDS_TOML_PATH) (fin _ nofun) w h
    exact fin' (hd := .initCommands) h1 nofun h2 h3

/-- **C128.** The wizard says that the user exists exactly if `useradd` told so. -/
theorem C128_user_exists_iff (env : WizEnv) (w : World) : .userExists ∈ (wizardRunT env w).2.2 ↔ env.useradd = some 9 := by
  constructor
  · intro h
    by_cases hc : env.useradd = some 9
    · exact hc
    · exfalso
      have hno : ∀ m ∈ (wizardSteps env).map Prod.snd, ∀ w, WizLine.userExists ∉ (m w).2.2 := by
        intro m hm
        unfold wizardSteps at hm
        simp only [List.map_cons, List.map_nil, List.mem_cons, List.not_mem_nil, or_false] at hm
        rcases hm with rfl | rfl | rfl | rfl | rfl | rfl | rfl | rfl | rfl | rfl
        · exact says_not (says_create _) nofun (fun h => hc h.2)
        · exact says_not (says_update _) nofun (fun ⟨_, h⟩ => by cases h)
        · exact says_not (says_writeData _ _) nofun id
        · exact says_not (says_writeData _ _) nofun id
        · exact says_not (says_writeData _ _) nofun id
        · exact says_not (says_initFile _ _ _) nofun nofun
        · exact says_not (says_initFile _ _ _) nofun nofun
        · exact says_not (says_systemctl _ _ _) nofun id
        · exact says_not (says_systemctl _ _ _) nofun id
        · exact says_not (says_systemctl _ _ _) nofun id
      have all : ∀ (L : List (WTell Unit)), (∀ m ∈ L, ∀ w, WizLine.userExists ∉ (m w).2.2) → ∀ w, WizLine.userExists ∉ (runSteps L (WTell.say .installed) w).2.2 := by
        intro L
        induction L with
        | nil => intro _ w h; cases List.mem_singleton.1 h
        | cons m L ih =>
          intro hL w h
          have h : WizLine.userExists ∈ (WTell.bind m (fun _ => runSteps L (WTell.say .installed)) w).2.2 := h
          have h1 := hL m (List.mem_cons_self ..) w
          unfold WTell.bind at h
          rcases hm : m w with ⟨o, w1, l⟩
          rw [hm] at h h1
          cases o with
          | ok _ => exact (List.mem_append.1 h).elim h1 (ih (fun m hm => hL m (List.mem_cons_of_mem _ hm)) w1)
          | err _ => exact h1 h
          | crash => exact h1 h
      rw [wizardRunT_steps] at h
      exact all _ hno w h
  · intro hc
    have e : (createRurocoUserT env.useradd w).1 = .ok () ∧ (createRurocoUserT env.useradd w).2.2 = [.creatingUser, .userExists] := by
      rw [hc]
      exact ⟨rfl, rfl⟩
    rw [wizardRunT_steps]
    show WizLine.userExists ∈ (WTell.bind (createRurocoUserT env.useradd) _ w).2.2
    unfold WTell.bind
    rcases hm : createRurocoUserT env.useradd w with ⟨o, w1, l⟩
    rw [hm] at e
    obtain ⟨rfl, rfl⟩ : o = .ok () ∧ l = [.creatingUser, .userExists] := e
    exact List.mem_append_left _ (by simp)

/-! ## Nothing is announced before its time -/

theorem runSteps_append (as cs : List (WTell Unit)) (fin : WTell Unit) : runSteps (as ++ cs) fin = (runSteps as (pure ()) >>= fun _ => runSteps cs fin) := by
  induction as with
  | nil => rfl
  | cons m as ih =>
    show (m >>= fun _ => runSteps (as ++ cs) fin) = ((m >>= fun _ => runSteps as (pure ())) >>= fun _ => runSteps cs fin)
    rw [ih]
    funext w
    show WTell.bind m (fun _ => WTell.bind (runSteps as (pure ())) (fun _ => runSteps cs fin)) w = WTell.bind (WTell.bind m (fun _ => runSteps as (pure ()))) (fun _ => runSteps cs fin) w
    unfold WTell.bind
    rcases m w with ⟨o, w1, l⟩
    cases o with
    | err _ => rfl
    | crash => rfl
    | ok _ =>
      simp only
      rcases runSteps as (pure ()) w1 with ⟨o, w2, l'⟩
      cases o <;> simp

theorem runSteps_quiet {x : WizLine} (as : List (WTell Unit)) (h : ∀ m ∈ as, ∀ w, x ∉ (m w).2.2) (w : World) : x ∉ (runSteps as (pure ()) w).2.2 := by
  induction as generalizing w with
  | nil => intro h; cases h
  | cons m as ih =>
    intro hx
    have hx : x ∈ (WTell.bind m (fun _ => runSteps as (pure ())) w).2.2 := hx
    have h1 := h m (List.mem_cons_self ..) w
    unfold WTell.bind at hx
    rcases hm : m w with ⟨o, w1, l⟩
    rw [hm] at hx h1
    cases o with
    | ok _ => exact (List.mem_append.1 hx).elim h1 (ih (fun m hm => h m (List.mem_cons_of_mem _ hm)) w1)
    | err _ => exact h1 hx
    | crash => exact h1 hx

/-- The steps up to the files, and those from there on. -/
def wizardFront (env : WizEnv) : List (WTell Unit) := ((wizardSteps env).take 7).map Prod.snd
def wizardRear (env : WizEnv) : List (WTell Unit) := ((wizardSteps env).drop 7).map Prod.snd

theorem front_quiet {x : WizLine} (hx : x = .reloading ∨ x = .enabling ∨ x = .starting) (env : WizEnv) : ∀ m ∈ wizardFront env, ∀ w, x ∉ (m w).2.2 := by
  intro m hm
  unfold wizardFront wizardSteps at hm
  simp only [List.take_succ_cons, List.take_zero, List.map_cons, List.map_nil, List.mem_cons, List.not_mem_nil, or_false] at hm
  rcases hx with rfl | rfl | rfl <;> rcases hm with rfl | rfl | rfl | rfl | rfl | rfl | rfl <;>
    first
      | exact says_not (says_create _) nofun (fun h => by cases h.1)
      | exact says_not (says_update _) nofun (fun ⟨_, h⟩ => by cases h)
      | exact says_not (says_writeData _ _) nofun id
      | exact says_not (says_initFile _ _ _) nofun nofun

theorem front_mute (env : WizEnv) : (runSteps (wizardFront env) (pure ())).mute = (createRurocoUser env.useradd >>= fun _ => wizardMid env) := by
  show WTell.mute (createRurocoUserT env.useradd >>= fun _ => wizardUpdateT env >>= fun _ => writeDataT RUROCO_SERVICE_FILE_PATH env.ruroco >>= fun _ =>
    writeDataT COMMANDER_SERVICE_FILE_PATH env.commander >>= fun _ => writeDataT SOCKET_FILE_PATH env.socket >>= fun _ => initFileT .initConfig CONFIG_TOML_PATH env.config >>= fun _ =>
    initFileT .initCommands COMMANDS_TOML_PATH env.commands >>= fun _ => pure ()) = _
  unfold wizardMid
  simp only [wtell_mute_bind, mute_createUser, mute_wizardUpdate, mute_writeData, mute_initFile]
  congr 1; funext _
  congr 1; funext _
  congr 1; funext _
  congr 1; funext _
  congr 1; funext _
  congr 1; funext _
  funext w
  simp only [bind, Act.bind]
  rcases initFile COMMANDS_TOML_PATH env.commands w with ⟨o, w'⟩
  cases o <;> rfl

theorem rear_fs (env : WizEnv) (w : World) : (runSteps (wizardRear env) (WTell.say .installed) w).2.1.fs = w.fs := by
  have h : (runSteps (wizardRear env) (WTell.say .installed)).mute = wizardTail env := by
    show WTell.mute (systemctlT .reloading ["daemon-reload".toList] env.reload >>= fun _ => systemctlT .enabling ("enable".toList :: units) env.enable >>= fun _ =>
      systemctlT .starting ("start".toList :: units) env.start >>= fun _ => WTell.say .installed) = _
    unfold wizardTail
    simp only [wtell_mute_bind, mute_systemctl]
    congr 1; funext _
    congr 1; funext _
    funext w
    simp only [bind, Act.bind]
    rcases systemctl ("start".toList :: units) env.start w with ⟨o, w'⟩
    cases o <;> rfl
  have e : (runSteps (wizardRear env) (WTell.say .installed) w).2.1 = (wizardTail env w).2 := congrArg Prod.snd (congrFun h w)
  rw [e]
  exact (wizardTail_spec env w).1

/-- **C128.** Whenever the wizard announces that it tells systemd to reload, enable or start, the user exists, and the verified binaries, the unit files and the configuration are in place; it
announces that it enables only after reloading, and that it starts only after enabling, has worked. -/
theorem C128_announced_in_time (env : WizEnv) (w : World) (x : WizLine) (hx : x = .reloading ∨ x = .enabling ∨ x = .starting) (h : x ∈ (wizardRunT env w).2.2) :
    (env.useradd = some 0 ∨ env.useradd = some 9) ∧ Spec.ServerSide env (wizardRun env w).2 ∧ (x = .enabling → env.reload = true) ∧ (x = .starting → env.reload = true ∧ env.enable = true) := by
  have hcut : wizardRunT env = (runSteps (wizardFront env) (pure ()) >>= fun _ => runSteps (wizardRear env) (WTell.say .installed)) := runSteps_append (wizardFront env) (wizardRear env) _
  rw [← wizard_world]
  rw [hcut] at h ⊢
  have h : x ∈ (WTell.bind (runSteps (wizardFront env) (pure ())) (fun _ => runSteps (wizardRear env) (WTell.say .installed)) w).2.2 := h
  show _ ∧ Spec.ServerSide env (WTell.bind (runSteps (wizardFront env) (pure ())) (fun _ => runSteps (wizardRear env) (WTell.say .installed)) w).2.1 ∧ _
  have hq := runSteps_quiet (wizardFront env) (front_quiet hx env) w
  have hm := congrFun (front_mute env) w
  unfold WTell.bind at h ⊢
  rcases hf : runSteps (wizardFront env) (pure ()) w with ⟨o, w1, l⟩
  unfold WTell.mute at hm
  rw [hf] at h hq hm
  cases o with
  | err _ => exact absurd h hq
  | crash => exact absurd h hq
  | ok _ =>
    have hrear := (List.mem_append.1 h).resolve_left hq
    have hfs := rear_fs env w1
    have hm : (Out.ok (), w1) = Act.bind (createRurocoUser env.useradd) (fun _ => wizardMid env) w := hm
    have huser : (createRurocoUser env.useradd w).1 = .ok () ∧ (Out.ok (), w1) = wizardMid env (createRurocoUser env.useradd w).2 := by
      unfold Act.bind at hm
      rcases hu : createRurocoUser env.useradd w with ⟨o, w0⟩
      rw [hu] at hm
      cases o with
      | ok _ => exact ⟨rfl, hm⟩
      | err _ => cases hm
      | crash => cases hm
    have hside : Spec.ServerSide env w1 := by
      have := wizardMid_installed env (createRurocoUser env.useradd w).2
      unfold wp at this
      rw [← huser.2] at this
      exact this rfl
    refine ⟨?_, ?_, ?_⟩
    · have h1 := huser.1
      unfold createRurocoUser at h1
      replace h1 := (step_ok h1).2
      split at h1
      · exact .inr ‹_›
      · split at h1
        · exact .inl ‹_›
        · cases h1
    · have key : ∀ v : World, v.fs = w1.fs → Spec.ServerSide env v := by
        intro v hv
        obtain ⟨a, b, c, d, e, g⟩ := hside
        unfold Spec.Has at a b c
        rw [← hv] at a b c d e g
        exact ⟨a, b, c, d, e, g⟩
      exact key _ hfs
    · have hrear : x ∈ (WTell.bind (systemctlT .reloading ["daemon-reload".toList] env.reload) (fun _ => WTell.bind (systemctlT .enabling ("enable".toList :: units) env.enable) (fun _ =>
          WTell.bind (systemctlT .starting ("start".toList :: units) env.start) (fun _ => WTell.say .installed))) w1).2.2 := hrear
      cases hr : env.reload with
      | false =>
        rw [hr] at hrear
        cases List.mem_singleton.1 hrear
        exact ⟨nofun, nofun⟩
      | true =>
        refine ⟨fun _ => rfl, fun hs => ⟨rfl, ?_⟩⟩
        cases he : env.enable with
        | true => rfl
        | false =>
          rw [hr, he, hs] at hrear
          have hrear : WizLine.starting ∈ [WizLine.reloading, .enabling] := hrear
          revert hrear
          decide

/-! ### Non-vacuity -/

/-- The lines of a fresh install. -/
example : (wizardRunT exWizEnv exBlank).2.2 = [.creatingUser, .userExists, .updating, .upd (.downloading "u/commander-v0.6.0-x86_64-linux".toList),
    .upd (.downloading "u/server-v0.6.0-x86_64-linux".toList), .upd .serverUpdated, .creating RUROCO_SERVICE_FILE_PATH, .creating COMMANDER_SERVICE_FILE_PATH, .creating SOCKET_FILE_PATH,
    .initConfig, .creating CONFIG_TOML_PATH, .initCommands, .creating COMMANDS_TOML_PATH, .reloading, .enabling, .starting, .installed] := by decide +kernel

/-- A second run does not create the configuration again; the services can not be enabled. -/
example : (wizardRunT { exWizEnv with enable := false } (exConfigured .creator 0o644)).2.2.drop 9 =
    [.initConfig, .initCommands, .creating COMMANDS_TOML_PATH, .reloading, .enabling] := by decide +kernel

end Ruroco
