import Verif.Spec.Commander
import Verif.Lemmas.Always
import Verif.Lemmas.Alive
import Verif.Lemmas.Server
import Verif.Spec.Terms.Commander

/-! What the commander's actions add to the trace. -/

namespace Ruroco

open Spec (spawns request commandFor)

theorem spawns_append (a b : List Event) : spawns (a ++ b) = spawns a ++ spawns b := by simp [spawns]

/-- The trace grows, without a command being started. -/
def QuietR (w w' : World) : Prop := ∃ l, w'.log = w.log ++ l ∧ spawns l = []

theorem quietR_pre : Pre QuietR where
  refl w := ⟨[], by simp, rfl⟩
  trans := by
    rintro a b c ⟨l, h1, h2⟩ ⟨l', h3, h4⟩
    exact ⟨l ++ l', by rw [h3, h1, List.append_assoc], by rw [spawns_append, h2, h4]; rfl⟩

abbrev Quiet (m : Act α) : Prop := Always QuietR m

theorem quiet_atomicCall {ev : Event} {eff : World → World} (hev : spawns [ev] = []) (h : ∀ w, (eff w).log = w.log) : Quiet (atomicCall ev eff) :=
  Always.atomicCall (fun _ _ => ⟨[ev], rfl, hev⟩) (fun w o => ⟨[ev], by rw [h], hev⟩)

theorem quiet_note {ev : Event} (hev : spawns [ev] = []) : Quiet (note ev) := Always.note (fun _ => ⟨[ev], rfl, hev⟩)

theorem quiet_nowNanos : Quiet nowNanos := Always.nowNanos (fun w c => ⟨[], by simp, rfl⟩)

theorem quiet_openTrunc (p : Path) : Quiet (openTrunc p) := quiet_atomicCall rfl (fun _ => rfl)

theorem quiet_tempOutputPath (pre : Path) (k : List Char) : Quiet (tempOutputPath pre k) :=
  Always.bind quietR_pre quiet_nowNanos (fun _ => Always.pure quietR_pre _)

theorem quiet_readFile (p : Path) : Quiet (readFile p) := by
  unfold readFile
  refine Always.bind quietR_pre (quiet_atomicCall rfl (fun _ => rfl)) (fun _ => Always.bind quietR_pre (Always.peek quietR_pre p) ?_)
  intro f
  cases f with
  | none => exact Always.throw quietR_pre _
  | some f => exact Always.pure quietR_pre _

theorem quiet_readOrEmpty (p : Path) : Quiet (readOrEmpty p) := by
  unfold readOrEmpty
  refine Always.bind quietR_pre (Always.attempt (quiet_readFile p)) ?_
  intro r
  cases r <;> exact Always.pure quietR_pre _

theorem quiet_removeFile (p : Path) : Quiet (removeFile p) := by
  unfold removeFile
  refine Always.bind quietR_pre (Always.peek quietR_pre p) ?_
  intro f
  cases f with
  | none => exact Always.throw quietR_pre _
  | some f => exact quiet_atomicCall rfl (fun _ => rfl)

theorem quiet_removeIgnoring (p : Path) : Quiet (removeIgnoring p) := by
  unfold removeIgnoring
  refine Always.bind quietR_pre (Always.attempt (quiet_removeFile p)) ?_
  intro r
  split
  · exact Always.pure quietR_pre _
  · exact Always.pure quietR_pre _
  · exact quiet_note rfl

theorem quiet_stopHere : Quiet (stopHere : Act α) := fun w => quietR_pre.refl w

theorem quiet_polled (p : Polled) : Quiet p.act := by
  cases p with
  | completed s => exact Always.pure quietR_pre _
  | timedOut t => exact Always.bind quietR_pre (quiet_note rfl) (fun _ => Always.bind quietR_pre (quiet_note rfl) (fun _ => Always.pure quietR_pre _))
  | waitFailed => exact Always.throw quietR_pre _
  | killFailed t => exact Always.throw quietR_pre _
  | reapFailed t => exact Always.bind quietR_pre (quiet_note rfl) (fun _ => Always.throw quietR_pre _)
  | waiting => exact quiet_stopHere

/-- At most this one command is started. -/
def SpawnsR (x : List Char × Ip) (w w' : World) : Prop := ∃ l, w'.log = w.log ++ l ∧ (spawns l = [] ∨ spawns l = [x])

theorem QuietR.spawns {x : List Char × Ip} {w w' : World} (h : QuietR w w') : SpawnsR x w w' := by
  obtain ⟨l, h1, h2⟩ := h
  exact ⟨l, h1, Or.inl h2⟩

theorem QuietR.then {x : List Char × Ip} {a b c : World} (h : QuietR a b) (h' : SpawnsR x b c) : SpawnsR x a c := by
  obtain ⟨l, h1, h2⟩ := h
  obtain ⟨l', h3, h4⟩ := h'
  refine ⟨l ++ l', by rw [h3, h1, List.append_assoc], ?_⟩
  rw [spawns_append, h2]
  simpa using h4

theorem SpawnsR.then {x : List Char × Ip} {a b c : World} (h : SpawnsR x a b) (h' : QuietR b c) : SpawnsR x a c := by
  obtain ⟨l, h1, h2⟩ := h
  obtain ⟨l', h3, h4⟩ := h'
  refine ⟨l ++ l', by rw [h3, h1, List.append_assoc], ?_⟩
  rw [spawns_append, h4]
  simpa using h2

theorem always_quiet_bind {x : List Char × Ip} {m : Act α} {f : α → Act β} (hm : Quiet m) (hf : ∀ a, Always (SpawnsR x) (f a)) :
    Always (SpawnsR x) (m >>= f) := by
  intro w
  show SpawnsR x w (Act.bind m f w).2
  unfold Act.bind
  have h1 := hm w
  rcases h : m w with ⟨o, w'⟩
  rw [h] at h1
  cases o with
  | ok a => exact h1.then (hf a w')
  | err e => exact h1.spawns
  | crash => exact h1.spawns

theorem always_bind_quiet {x : List Char × Ip} {m : Act α} {f : α → Act β} (hm : Always (SpawnsR x) m) (hf : ∀ a, Quiet (f a)) :
    Always (SpawnsR x) (m >>= f) := by
  intro w
  show SpawnsR x w (Act.bind m f w).2
  unfold Act.bind
  have h1 := hm w
  rcases h : m w with ⟨o, w'⟩
  rw [h] at h1
  cases o with
  | ok a => exact h1.then (hf a w')
  | err e => exact h1
  | crash => exact h1

theorem spawns_spawnAndWait (cmd : List Char) (t : Nat) (ip : Ip) (out err : Path) (env : ChildEnv) :
    Always (SpawnsR (cmd, ip)) (spawnAndWait cmd t ip out err env) := by
  unfold spawnAndWait
  refine always_quiet_bind (quiet_openTrunc _) (fun _ => always_quiet_bind (quiet_openTrunc _) (fun _ => always_bind_quiet ?_ (fun _ => quiet_polled _)))
  exact Always.atomicCall (fun w o => ⟨[.spawn cmd ip], rfl, Or.inr rfl⟩) (fun w o => ⟨[.spawn cmd ip], rfl, Or.inr rfl⟩)

theorem spawns_execute (pre : Path) (cmd : List Char) (t : Nat) (ip : Ip) (env : ChildEnv) :
    Always (SpawnsR (cmd, ip)) (executeWithTimeout pre cmd t ip env) := by
  unfold executeWithTimeout
  refine always_quiet_bind (quiet_tempOutputPath _ _) (fun out => always_quiet_bind (quiet_tempOutputPath _ _) (fun err => ?_))
  refine always_bind_quiet (Always.attempt (spawns_spawnAndWait _ _ _ _ _ _)) (fun r => ?_)
  refine Always.bind quietR_pre (quiet_readOrEmpty _) (fun _ => Always.bind quietR_pre (quiet_readOrEmpty _) (fun _ => ?_))
  refine Always.bind quietR_pre (quiet_removeIgnoring _) (fun _ => Always.bind quietR_pre (quiet_removeIgnoring _) (fun _ => ?_))
  exact Always.bind quietR_pre (Always.ofExcept quietR_pre _) (fun _ => Always.pure quietR_pre _)

theorem ofBytes_take (bytes : List Byte) :
    CommanderData.ofBytes (bytes.take CMDR_DATA_SIZE) = ⟨BitVec.ofNat 64 (ofBE (bytes.take 8)), deserializeIp ((bytes.drop 8).take 16)⟩ := by
  unfold CommanderData.ofBytes slice CMDR_DATA_SIZE
  simp [List.take_take, List.drop_take]

/-- A connection either starts nothing, or the command it is entitled to. -/
theorem runCycle_cases (c : Commander) (pre : Path) (tf : Bool) (bytes : List Byte) (env : ChildEnv) :
    (commandFor c (.stream tf bytes env) = none ∧ ((∃ e, c.runCycle pre tf bytes env = Act.throw e) ∨ c.runCycle pre tf bytes env = pure none)) ∨
    (∃ h ip spec, request (.stream tf bytes env) = some (h, ip) ∧ c.cmds.get h = some spec ∧ (c.allowNonRoutable = true ∨ isRoutable ip = true) ∧
      commandFor c (.stream tf bytes env) = some (spec.cmd, ip) ∧
      c.runCycle pre tf bytes env = (do
        let r ← (executeWithTimeout pre spec.cmd spec.timeout ip env).attempt
        pure (some r))) := by
  unfold commandFor request Commander.runCycle Commander.read
  cases tf with
  | true => exact Or.inl ⟨by simp, Or.inl ⟨_, if_pos rfl⟩⟩
  | false =>
    simp only [Bool.false_eq_true, false_or, if_false]
    by_cases hl : bytes.length < 24
    · exact Or.inl ⟨by simp [hl], Or.inl ⟨_, by rw [if_pos (show bytes.length < CMDR_DATA_SIZE from hl)]; rfl⟩⟩
    · rw [if_neg (show ¬ bytes.length < CMDR_DATA_SIZE from hl), if_neg hl]
      have hb : ∀ f : List Byte → Act (Option (Except Err (CommandExit × List Byte × List Byte))),
        (Act.ofExcept (.ok (bytes.take CMDR_DATA_SIZE)) >>= f) = f (bytes.take CMDR_DATA_SIZE) := fun f => rfl
      rw [hb]
      simp only [ofBytes_take]
      generalize BitVec.ofNat 64 (ofBE (bytes.take 8)) = h
      generalize deserializeIp ((bytes.drop 8).take 16) = ip
      cases hg : c.cmds.get h with
      | none => exact Or.inl ⟨rfl, Or.inl ⟨_, rfl⟩⟩
      | some spec =>
        simp only [Commander.runCommand]
        cases ha : c.allowNonRoutable with
        | true =>
          refine Or.inr ⟨h, ip, spec, rfl, hg, Or.inl rfl, by simp, by simp⟩
        | false =>
          cases hr : isRoutable ip with
          | true => exact Or.inr ⟨h, ip, spec, rfl, hg, Or.inr hr, by simp, by simp⟩
          | false => exact Or.inl ⟨by simp, Or.inr (by simp)⟩

/-- The commands started while serving connections are among those the connections are entitled to, in order. -/
theorem serve_spawns (c : Commander) (pre : Path) (conns : List Conn) (w : World) :
    ∃ l, (c.serve pre conns w).2.log = w.log ++ l ∧ (spawns l).Sublist (conns.filterMap (commandFor c)) := by
  induction conns generalizing w with
  | nil => exact ⟨[], by simp [Commander.serve, Pure.pure, Act.pure], by simp [spawns]⟩
  | cons k rest ih =>
    cases k with
    | acceptFailed =>
      have : commandFor c .acceptFailed = none := rfl
      rw [List.filterMap_cons_none this]
      exact ih w
    | stream tf bytes env =>
      unfold Commander.serve
      show ∃ l, (Act.bind (c.runCycle pre tf bytes env).attempt (fun _ => c.serve pre rest) w).2.log = _ ∧ _
      have hstep : ∃ l, ((c.runCycle pre tf bytes env).attempt w).2.log = w.log ++ l ∧
          (spawns l).Sublist (commandFor c (.stream tf bytes env)).toList := by
        rcases runCycle_cases c pre tf bytes env with ⟨hn, ⟨e, he⟩ | he⟩ | ⟨h, ip, spec, _, _, _, hc, he⟩
        · rw [he]; exact ⟨[], by simp [Act.attempt, Act.throw], by simp [spawns]⟩
        · rw [he]; exact ⟨[], by simp [Act.attempt, Pure.pure, Act.pure], by simp [spawns]⟩
        · rw [he, hc]
          obtain ⟨l, h1, h2⟩ := Always.attempt (always_bind_quiet (Always.attempt (spawns_execute pre spec.cmd spec.timeout ip env))
            (fun r => Always.pure quietR_pre (some r))) w
          refine ⟨l, h1, ?_⟩
          rcases h2 with h2 | h2 <;> rw [h2] <;> simp
      have hf : (List.filterMap (commandFor c) (.stream tf bytes env :: rest)) =
          (commandFor c (.stream tf bytes env)).toList ++ rest.filterMap (commandFor c) := by
        rw [List.filterMap_cons]
        cases commandFor c (.stream tf bytes env) <;> rfl
      rw [hf]
      obtain ⟨l, h1, h2⟩ := hstep
      unfold Act.bind
      rcases hx : (c.runCycle pre tf bytes env).attempt w with ⟨o, w1⟩
      rw [hx] at h1
      cases o with
      | ok a =>
        obtain ⟨l', h3, h4⟩ := ih w1
        refine ⟨l ++ l', by simp only; rw [h3, h1, List.append_assoc], ?_⟩
        rw [spawns_append]
        exact h2.append h4
      | err e => exact ⟨l, h1, h2.trans (List.sublist_append_left _ _)⟩
      | crash => exact ⟨l, h1, h2.trans (List.sublist_append_left _ _)⟩

/-! ## Nothing but the environment stops it -/

theorem alive_readFile (p : Path) : Alive (readFile p) := by
  unfold readFile
  refine Alive.bind (Alive.atomicCall (fun _ => rfl)) (fun _ => Alive.bind (Alive.peek p) ?_)
  intro f
  cases f with
  | none => exact Alive.throw _
  | some f => exact Alive.pure _

theorem alive_readOrEmpty (p : Path) : Alive (readOrEmpty p) := by
  unfold readOrEmpty
  refine Alive.bind (Alive.attempt (alive_readFile p)) ?_
  intro r
  cases r <;> exact Alive.pure _

theorem alive_removeFile (p : Path) : Alive (removeFile p) := by
  unfold removeFile
  refine Alive.bind (Alive.peek p) ?_
  intro f
  cases f with
  | none => exact Alive.throw _
  | some f => exact Alive.atomicCall (fun _ => rfl)

theorem alive_removeIgnoring (p : Path) : Alive (removeIgnoring p) := by
  unfold removeIgnoring
  refine Alive.bind (Alive.attempt (alive_removeFile p)) ?_
  intro r
  split
  · exact Alive.pure _
  · exact Alive.pure _
  · exact Alive.note _

theorem alive_polled {p : Polled} (h : p ≠ .waiting) : Alive p.act := by
  cases p with
  | completed s => exact Alive.pure _
  | timedOut t => exact Alive.bind (Alive.note _) (fun _ => Alive.bind (Alive.note _) (fun _ => Alive.pure _))
  | waitFailed => exact Alive.throw _
  | killFailed t => exact Alive.throw _
  | reapFailed t => exact Alive.bind (Alive.note _) (fun _ => Alive.throw _)
  | waiting => exact absurd rfl h

theorem alive_execute {pre : Path} {cmd : List Char} {t : Nat} {ip : Ip} {env : ChildEnv}
    (h : pollLoop env.exit (deadlineOf env.startAt t) env.rounds ≠ .waiting) : Alive (executeWithTimeout pre cmd t ip env) := by
  unfold executeWithTimeout tempOutputPath spawnAndWait
  refine Alive.bind (Alive.bind Alive.nowNanos (fun _ => Alive.pure _)) (fun out => ?_)
  refine Alive.bind (Alive.bind Alive.nowNanos (fun _ => Alive.pure _)) (fun err => ?_)
  refine Alive.bind (Alive.attempt ?_) (fun r => ?_)
  · exact Alive.bind (Alive.openTrunc _) (fun _ => Alive.bind (Alive.openTrunc _) (fun _ => Alive.bind (Alive.atomicCall (fun _ => rfl)) (fun _ => alive_polled h)))
  · refine Alive.bind (alive_readOrEmpty _) (fun _ => Alive.bind (alive_readOrEmpty _) (fun _ => ?_))
    refine Alive.bind (alive_removeIgnoring _) (fun _ => Alive.bind (alive_removeIgnoring _) (fun _ => ?_))
    exact Alive.bind (Alive.ofExcept _) (fun _ => Alive.pure _)

theorem serve_alive (c : Commander) (pre : Path) (conns : List Conn) (h : ∀ k ∈ conns, Ends c k) (w : World) (hw : NoCrash w.oracle) :
    (c.serve pre conns w).1 = .ok () := by
  induction conns generalizing w with
  | nil => rfl
  | cons k rest ih =>
    have hr := ih (fun k hk => h k (List.mem_cons_of_mem _ hk))
    cases k with
    | acceptFailed => exact hr w hw
    | stream tf bytes env =>
      have hk := h _ (List.mem_cons_self)
      unfold Commander.serve
      show (Act.bind (c.runCycle pre tf bytes env).attempt (fun _ => c.serve pre rest) w).1 = _
      have ha : Alive (c.runCycle pre tf bytes env) := by
        rcases runCycle_cases c pre tf bytes env with ⟨hn, ⟨e, he⟩ | he⟩ | ⟨hh, ip, spec, _, hg, _, hc, he⟩
        · rw [he]; exact Alive.throw _
        · rw [he]; exact Alive.pure _
        · rw [he]; exact Alive.bind (Alive.attempt (alive_execute (hk hh spec hg))) (fun _ => Alive.pure _)
      have h1 := Alive.attempt ha w hw
      unfold Act.bind
      have hne : ∀ e, ((c.runCycle pre tf bytes env).attempt w).1 ≠ .err e := by
        intro e
        unfold Act.attempt
        split <;> simp
      rcases hx : (c.runCycle pre tf bytes env).attempt w with ⟨o, w1⟩
      rw [hx] at h1 hne
      cases o with
      | ok a => exact hr w1 h1.2
      | err e => exact absurd rfl (hne e)
      | crash => exact absurd rfl h1.1

/-! ## A working environment -/

/-- System calls go on working and no clock reading is used up. -/
def KeepsR (w w' : World) : Prop := AllOk w → AllOk w' ∧ w'.clock = w.clock

theorem keepsR_pre : Pre KeepsR where
  refl _ h := ⟨h, rfl⟩
  trans h1 h2 h := ⟨(h2 (h1 h).1).1, by rw [(h2 (h1 h).1).2, (h1 h).2]⟩

theorem keeps_atomicCall {ev : Event} {eff : World → World} (h : ∀ w, (eff w).oracle = w.oracle ∧ (eff w).clock = w.clock) :
    Always KeepsR (atomicCall ev eff) := by
  intro w hw
  exact wp_atomicCall_ok ev eff w hw (fun _ w' => AllOk w' ∧ w'.clock = w.clock) (fun o ho => ⟨by unfold AllOk; rw [(h _).1]; exact ho, by rw [(h _).2]⟩)

theorem keeps_note (ev : Event) : Always KeepsR (note ev) := Always.note (fun _ h => ⟨h, rfl⟩)

theorem keeps_readOrEmpty (p : Path) : Always KeepsR (readOrEmpty p) := by
  unfold readOrEmpty readFile
  refine Always.bind keepsR_pre (Always.attempt (Always.bind keepsR_pre (keeps_atomicCall (fun _ => ⟨rfl, rfl⟩)) (fun _ =>
    Always.bind keepsR_pre (Always.peek keepsR_pre p) ?_))) ?_
  · intro f
    cases f with
    | none => exact Always.throw keepsR_pre _
    | some f => exact Always.pure keepsR_pre _
  · intro r
    cases r <;> exact Always.pure keepsR_pre _

theorem keeps_removeIgnoring (p : Path) : Always KeepsR (removeIgnoring p) := by
  unfold removeIgnoring removeFile
  refine Always.bind keepsR_pre (Always.attempt (Always.bind keepsR_pre (Always.peek keepsR_pre p) ?_)) ?_
  · intro f
    cases f with
    | none => exact Always.throw keepsR_pre _
    | some f => exact keeps_atomicCall (fun _ => ⟨rfl, rfl⟩)
  · intro r
    split
    · exact Always.pure keepsR_pre _
    · exact Always.pure keepsR_pre _
    · exact keeps_note _

theorem keeps_polled (p : Polled) : Always KeepsR p.act := by
  cases p with
  | completed s => exact Always.pure keepsR_pre _
  | timedOut t => exact Always.bind keepsR_pre (keeps_note _) (fun _ => Always.bind keepsR_pre (keeps_note _) (fun _ => Always.pure keepsR_pre _))
  | waitFailed => exact Always.throw keepsR_pre _
  | killFailed t => exact Always.throw keepsR_pre _
  | reapFailed t => exact Always.bind keepsR_pre (keeps_note _) (fun _ => Always.throw keepsR_pre _)
  | waiting => exact fun w => keepsR_pre.refl w

theorem wp_quiet_tail {m : Act α} (hq : Quiet m) (hk : Always KeepsR m) {w : World} (hw : AllOk w) :
    wp m w (fun _ w' => AllOk w' ∧ w'.clock = w.clock ∧ ∃ l, w'.log = w.log ++ l ∧ spawns l = []) :=
  ⟨(hk w hw).1, (hk w hw).2, hq w⟩

/-- With working system calls and clock, an execution starts its command, exactly once. -/
theorem execute_spawns {pre : Path} {cmd : List Char} {t : Nat} {ip : Ip} {env : ChildEnv} {w : World} (hw : AllOk w) {a b : U128}
    {cl : List (Option U128)} (hc : w.clock = some a :: some b :: cl) :
    wp (executeWithTimeout pre cmd t ip env) w (fun _ w' => AllOk w' ∧ w'.clock = cl ∧ ∃ l, w'.log = w.log ++ l ∧ spawns l = [(cmd, ip)]) := by
  unfold executeWithTimeout tempOutputPath spawnAndWait openTrunc
  rw [wp_bind, wp_bind, wp_nowNanos_some (h := hc)]
  simp only [wp_pure]
  rw [wp_bind, wp_bind, wp_nowNanos_some (t := b) (c := cl) (h := rfl)]
  simp only [wp_pure]
  rw [wp_bind, wp_attempt, wp_bind]
  refine wp_atomicCall_ok _ _ _ (by exact hw) _ ?_
  intro o1 h1
  simp only
  rw [wp_bind]
  refine wp_atomicCall_ok _ _ _ (by exact h1) _ ?_
  intro o2 h2
  simp only
  rw [wp_bind]
  refine wp_atomicCall_ok _ _ _ (by exact h2) _ ?_
  intro o3 h3
  simp only
  refine wp_mono (wp_quiet_tail (quiet_polled _) (keeps_polled _) (show AllOk _ from h3)) ?_
  rintro o w4 ⟨h4, c4, l4, e4, s4⟩
  have done : ∀ w', (AllOk w' ∧ w'.clock = w4.clock ∧ ∃ l, w'.log = w4.log ++ l ∧ spawns l = []) →
      AllOk w' ∧ w'.clock = cl ∧ ∃ l, w'.log = w.log ++ l ∧ spawns l = [(cmd, ip)] := by
    rintro w' ⟨g1, g2, l, g3, g4⟩
    refine ⟨g1, by rw [g2, c4]; rfl, ?_⟩
    rw [g3, e4]
    simp only [World.setEntry, List.append_assoc]
    refine ⟨_, rfl, ?_⟩
    simp only [spawns_append, s4, g4]
    rfl
  have tail : ∀ (out err : Path) (r : Except Err CommandExit), wp (do
      let stdout ← readOrEmpty out
      let stderr ← readOrEmpty err
      removeIgnoring out
      removeIgnoring err
      let exit ← Act.ofExcept r
      pure (exit, stdout, stderr)) w4 (fun _ w' => AllOk w' ∧ w'.clock = cl ∧ ∃ l, w'.log = w.log ++ l ∧ spawns l = [(cmd, ip)]) := by
    intro out err r
    refine wp_mono (wp_quiet_tail ?_ ?_ h4) (fun _ w' h => done w' h)
    · refine Always.bind quietR_pre (quiet_readOrEmpty _) (fun _ => Always.bind quietR_pre (quiet_readOrEmpty _) (fun _ => ?_))
      refine Always.bind quietR_pre (quiet_removeIgnoring _) (fun _ => Always.bind quietR_pre (quiet_removeIgnoring _) (fun _ => ?_))
      exact Always.bind quietR_pre (Always.ofExcept quietR_pre _) (fun _ => Always.pure quietR_pre _)
    · refine Always.bind keepsR_pre (keeps_readOrEmpty _) (fun _ => Always.bind keepsR_pre (keeps_readOrEmpty _) (fun _ => ?_))
      refine Always.bind keepsR_pre (keeps_removeIgnoring _) (fun _ => Always.bind keepsR_pre (keeps_removeIgnoring _) (fun _ => ?_))
      exact Always.bind keepsR_pre (Always.ofExcept keepsR_pre _) (fun _ => Always.pure keepsR_pre _)
  cases o with
  | ok x => exact tail _ _ _
  | err e => exact tail _ _ _
  | crash => exact done w4 ⟨h4, rfl, [], by simp, rfl⟩

theorem serve_exact (c : Commander) (pre : Path) (conns : List Conn) (h : ∀ k ∈ conns, Ends c k) (w : World) (hw : AllOk w)
    (hcl : ∀ t ∈ w.clock, t ≠ none) (hlen : 2 * conns.length ≤ w.clock.length) :
    ∃ l, (c.serve pre conns w).2.log = w.log ++ l ∧ spawns l = conns.filterMap (commandFor c) := by
  induction conns generalizing w with
  | nil => exact ⟨[], by simp [Commander.serve, Pure.pure, Act.pure], by simp [spawns]⟩
  | cons k rest ih =>
    have hr := ih (fun k hk => h k (List.mem_cons_of_mem _ hk))
    simp only [List.length_cons] at hlen
    cases k with
    | acceptFailed =>
      have : commandFor c .acceptFailed = none := rfl
      rw [List.filterMap_cons_none this]
      exact hr w hw hcl (by omega)
    | stream tf bytes env =>
      have hk := h _ (List.mem_cons_self)
      unfold Commander.serve
      show ∃ l, (Act.bind (c.runCycle pre tf bytes env).attempt (fun _ => c.serve pre rest) w).2.log = _ ∧ _
      rcases runCycle_cases c pre tf bytes env with ⟨hn, ⟨e, he⟩ | he⟩ | ⟨hh, ip, spec, _, hg, _, hc, he⟩
      · rw [he, List.filterMap_cons_none hn]
        exact hr w hw hcl (by omega)
      · rw [he, List.filterMap_cons_none hn]
        exact hr w hw hcl (by omega)
      · rw [he, List.filterMap_cons_some hc]
        obtain ⟨a, b, cl, hclk⟩ : ∃ a b cl, w.clock = some a :: some b :: cl := by
          match hm : w.clock with
          | [] => rw [hm] at hlen; simp at hlen
          | [x] => rw [hm] at hlen; simp at hlen; omega
          | none :: _ => exact absurd rfl (hcl none (by rw [hm]; simp))
          | some _ :: none :: _ => exact absurd rfl (hcl none (by rw [hm]; simp))
          | some a :: some b :: cl => exact ⟨a, b, cl, rfl⟩
        have hx := execute_spawns (pre := pre) (cmd := spec.cmd) (t := spec.timeout) (ip := ip) (env := env) hw hclk
        have hnc : NoCrash w.oracle := by
          intro x hx k hk
          have := hw x hx
          rw [hk] at this
          cases this
        have hal := (alive_execute (pre := pre) (cmd := spec.cmd) (ip := ip) (hk hh spec hg)) w hnc
        unfold wp at hx
        unfold Act.bind
        rcases hrun : executeWithTimeout pre spec.cmd spec.timeout ip env w with ⟨o, w1⟩
        rw [hrun] at hx hal
        obtain ⟨k1, k2, l, k3, k4⟩ := hx
        simp only at k1 k2 k3
        have hsub : ∀ t ∈ w1.clock, t ≠ none := by rw [k2]; intro t ht; exact hcl t (by rw [hclk]; simp [ht])
        have hl : 2 * rest.length ≤ w1.clock.length := by rw [k2]; rw [hclk] at hlen; simp at hlen; omega
        obtain ⟨l', m1, m2⟩ := hr w1 k1 hsub hl
        have hres : (Act.attempt (do
            let r ← (executeWithTimeout pre spec.cmd spec.timeout ip env).attempt
            pure (some r)) w) = (.ok (.ok (some (match o with | .ok x => .ok x | .err e => .error e | .crash => .error .io))), w1) := by
          show Act.attempt (Act.bind (executeWithTimeout pre spec.cmd spec.timeout ip env).attempt _) w = _
          unfold Act.attempt Act.bind
          simp only [hrun]
          cases o with
          | ok x => rfl
          | err e => rfl
          | crash => exact absurd rfl hal.1
        rw [hres]
        refine ⟨l ++ l', by simp only; rw [m1, k3, List.append_assoc], ?_⟩
        rw [spawns_append, k4, m2]
        rfl

end Ruroco
