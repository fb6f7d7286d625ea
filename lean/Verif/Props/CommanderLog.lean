import Verif.Spec.CommanderLog
import Verif.Props.Commander
import Verif.Spec.Terms.CommanderLog

/-!
# C86: every execution is on record
-/

namespace Ruroco

open Spec

theorem runCycle_select (c : Commander) (pre : Path) (tf : Bool) (bytes : List Byte) (env : ChildEnv) :
    c.runCycle pre tf bytes env = match c.select tf bytes with
      | .error e => Act.throw e
      | .ok (d, spec) => c.runCommand pre spec.cmd spec.timeout d.ip env := by
  unfold Commander.runCycle Commander.select
  cases tf with
  | true => rfl
  | false =>
    simp only [Bool.false_eq_true, if_false]
    cases Commander.read bytes with
    | error e => rfl
    | ok msg =>
      show (match c.cmds.get (CommanderData.ofBytes msg).cmdHash with | none => Act.throw Err.unknownCommand | some spec => _) = _
      simp only
      cases c.cmds.get (CommanderData.ofBytes msg).cmdHash <;> rfl

theorem select_commandFor (c : Commander) (tf : Bool) (bytes : List Byte) (env : ChildEnv) :
    commandFor c (.stream tf bytes env) = match c.select tf bytes with
      | .error _ => none
      | .ok (d, spec) => if c.allowNonRoutable = true ∨ isRoutable d.ip = true then some (spec.cmd, d.ip) else none := by
  unfold commandFor request Commander.select Commander.read
  cases tf with
  | true => rfl
  | false =>
    simp only [Bool.false_eq_true, false_or, if_false]
    by_cases hl : bytes.length < 24
    · rw [if_pos hl, if_pos (show bytes.length < CMDR_DATA_SIZE from hl)]
    · rw [if_neg hl, if_neg (show ¬ bytes.length < CMDR_DATA_SIZE from hl)]
      simp only [ofBytes_take]
      cases c.cmds.get (BitVec.ofNat 64 (ofBE (bytes.take 8))) <;> rfl

theorem attempt_bind (m : Act α) (f : Except Err α → Act β) (w : World) :
    (m.attempt >>= f) w = match m w with
      | (.ok a, w') => f (.ok a) w'
      | (.err e, w') => f (.error e) w'
      | (.crash, w') => (.crash, w') := by
  show Act.bind m.attempt f w = _
  unfold Act.bind Act.attempt
  rcases m w with ⟨o, w'⟩
  cases o <;> rfl

/-- What one execution leaves: if it is refused nothing happens; else it is `executeWithTimeout`, with its errors made part of the result. -/
theorem runCommand_cases (c : Commander) (pre : Path) (cmd : List Char) (t : Nat) (ip : Ip) (env : ChildEnv) (w : World) :
    (¬ (c.allowNonRoutable = true ∨ isRoutable ip = true) ∧ c.runCommand pre cmd t ip env w = (.ok none, w)) ∨
    ((c.allowNonRoutable = true ∨ isRoutable ip = true) ∧ ((∃ r w', c.runCommand pre cmd t ip env w = (.ok (some r), w') ∧ (executeWithTimeout pre cmd t ip env w).2 = w') ∨
      (∃ w', c.runCommand pre cmd t ip env w = (.crash, w') ∧ executeWithTimeout pre cmd t ip env w = (.crash, w')))) := by
  unfold Commander.runCommand
  by_cases h : c.allowNonRoutable = true ∨ isRoutable ip = true
  · right
    refine ⟨h, ?_⟩
    rw [if_neg (by rcases h with h | h <;> simp [h])]
    rw [attempt_bind]
    rcases he : executeWithTimeout pre cmd t ip env w with ⟨o, w'⟩
    cases o with
    | ok x => exact .inl ⟨_, _, rfl, rfl⟩
    | err e => exact .inl ⟨_, _, rfl, rfl⟩
    | crash => exact .inr ⟨w', rfl, rfl⟩
  · left
    refine ⟨h, ?_⟩
    simp only [not_or, Bool.not_eq_true] at h
    simp [h.1, h.2, Pure.pure, Act.pure]

theorem recorded_report (T : TextCodec) (spec : CommandSpec) (ip : Ip) (r : Except Err (CommandExit × List Byte × List Byte)) : recorded (reportOf T spec ip (some r)) = some (spec.cmd, ip) := by
  cases r with
  | error e => rfl
  | ok x =>
    obtain ⟨x, o, e⟩ := x
    cases x <;> rfl

theorem serveLog_cons (T : TextCodec) (c : Commander) (pre : Path) (tf : Bool) (bytes : List Byte) (env : ChildEnv) (rest : List Conn) (w : World) :
    c.serveLog T pre (.stream tf bytes env :: rest) w = match c.select tf bytes with
      | .error e => .failed e :: c.serveLog T pre rest w
      | .ok (d, spec) =>
        .running d.cmdHash spec.cmd ::
          match c.runCommand pre spec.cmd spec.timeout d.ip env w with
          | (.ok r, w') => reportOf T spec d.ip r :: c.serveLog T pre rest w'
          | (.err _, w') => c.serveLog T pre rest w'
          | (.crash, _) => [] := by
  cases w
  rfl

/-- One connection. -/
theorem serveLog_stream (T : TextCodec) (c : Commander) (pre : Path) (tf : Bool) (bytes : List Byte) (env : ChildEnv) (rest : List Conn) (w : World) :
    (∃ w1 l, (∃ x, (c.runCycle pre tf bytes env).attempt w = (.ok x, w1)) ∧ w1.log = w.log ++ l ∧ (spawns l).Sublist (commandFor c (.stream tf bytes env)).toList ∧
      (c.serveLog T pre (.stream tf bytes env :: rest) w).filterMap recorded = (commandFor c (.stream tf bytes env)).toList ++ (c.serveLog T pre rest w1).filterMap recorded ∧
      ∃ es, c.serveLog T pre (.stream tf bytes env :: rest) w = es ++ c.serveLog T pre rest w1) ∨
    (∃ w1 l h x, (c.runCycle pre tf bytes env).attempt w = (.crash, w1) ∧ w1.log = w.log ++ l ∧ (spawns l).Sublist [x] ∧ commandFor c (.stream tf bytes env) = some x ∧
      c.serveLog T pre (.stream tf bytes env :: rest) w = [.running h x.1]) := by
  have hs := select_commandFor c tf bytes env
  rw [runCycle_select, hs, serveLog_cons]
  cases hsel : c.select tf bytes with
  | error e => exact .inl ⟨w, [], ⟨_, rfl⟩, by simp, by simp [spawns], rfl, [.failed e], rfl⟩
  | ok x =>
    obtain ⟨d, spec⟩ := x
    rw [hsel] at hs
    simp only at hs ⊢
    rcases runCommand_cases c pre spec.cmd spec.timeout d.ip env w with ⟨hn, he⟩ | ⟨hy, ⟨r, w', he, hx⟩ | ⟨w', he, hx⟩⟩
    · left
      refine ⟨w, [], ⟨.ok none, ?_⟩, by simp, by simp [spawns], ?_, [.running d.cmdHash spec.cmd, .refused d.ip], ?_⟩
      · unfold Act.attempt; rw [he]
      · rw [he, if_neg hn]; rfl
      · rw [he]; rfl
    · left
      obtain ⟨l, h1, h2⟩ := spawns_execute pre spec.cmd spec.timeout d.ip env w
      rw [hx] at h1
      refine ⟨w', l, ⟨.ok (some r), ?_⟩, h1, ?_, ?_, [.running d.cmdHash spec.cmd, reportOf T spec d.ip (some r)], ?_⟩
      · unfold Act.attempt; rw [he]
      · rw [if_pos hy]; rcases h2 with h2 | h2 <;> rw [h2] <;> simp
      · rw [he, if_pos hy]
        show (reportOf T spec d.ip (some r) :: c.serveLog T pre rest w').filterMap recorded = _
        rw [List.filterMap_cons_some (recorded_report T spec d.ip r)]
        rfl
      · rw [he]; rfl
    · right
      obtain ⟨l, h1, h2⟩ := spawns_execute pre spec.cmd spec.timeout d.ip env w
      rw [hx] at h1
      refine ⟨w', l, d.cmdHash, (spec.cmd, d.ip), ?_, h1, ?_, ?_, ?_⟩
      · unfold Act.attempt; rw [he]
      · rcases h2 with h2 | h2 <;> rw [h2] <;> simp
      · rw [if_pos hy]
      · rw [he]

/-- **C86 (partial).** As long as the commander is not killed, the records in its log are, in order and one for each, those of the executions the connections were entitled to, with the text of the
command and the address of the client; every command started has one. Missing: the commander may be killed during an execution, see `C86_killed` and `C86_client_lost`. -/
theorem C86_every_execution_recorded_partial (T : TextCodec) (c : Commander) (pre : Path) (conns : List Conn) (w w' : World) (h : c.serve pre conns w = (.ok (), w')) :
    (c.serveLog T pre conns w).filterMap recorded = conns.filterMap (commandFor c) ∧
    ∃ l, w'.log = w.log ++ l ∧ (spawns l).Sublist ((c.serveLog T pre conns w).filterMap recorded) := by
  have main : (c.serveLog T pre conns w).filterMap recorded = conns.filterMap (commandFor c) := by
    induction conns generalizing w with
    | nil => rfl
    | cons k rest ih =>
      cases k with
      | acceptFailed =>
        have hn : commandFor c .acceptFailed = none := rfl
        rw [List.filterMap_cons_none hn, ← ih w h]
        rfl
      | stream tf bytes env =>
        unfold Commander.serve at h
        have h : Act.bind (c.runCycle pre tf bytes env).attempt (fun _ => c.serve pre rest) w = (.ok (), w') := h
        unfold Act.bind at h
        rcases serveLog_stream T c pre tf bytes env rest w with ⟨w1, l, ⟨x, hx⟩, _, _, hr, _⟩ | ⟨w1, l, hh, x, hx, _⟩
        · rw [hx] at h
          rw [hr, ih w1 h, List.filterMap_cons]
          cases commandFor c (.stream tf bytes env) <;> rfl
        · rw [hx] at h
          cases h
  refine ⟨main, ?_⟩
  rw [main]
  obtain ⟨l, h1, h2⟩ := serve_spawns c pre conns w
  rw [h] at h1
  exact ⟨l, h1, h2⟩

/-- **C86 (partial).** In any case, whatever fails and wherever the commander dies: at most one command started lacks a record, and of that one the last entry says that it is running. -/
theorem C86_killed (T : TextCodec) (c : Commander) (pre : Path) (conns : List Conn) (w w' : World) (o : Out Unit) (h : c.serve pre conns w = (o, w')) :
    ∃ l, ∃ lost : Option (List Char × Ip), w'.log = w.log ++ l ∧ (spawns l).Sublist ((c.serveLog T pre conns w).filterMap recorded ++ lost.toList) ∧
      ∀ x, lost = some x → ∃ hash, (c.serveLog T pre conns w).getLast? = some (.running hash x.1) := by
  induction conns generalizing w with
  | nil =>
    cases h
    exact ⟨[], none, by simp, by simp [spawns], by simp⟩
  | cons k rest ih =>
    cases k with
    | acceptFailed =>
      obtain ⟨l, lost, h1, h2, h3⟩ := ih w h
      refine ⟨l, lost, h1, h2, fun x hx => ?_⟩
      obtain ⟨hash, h4⟩ := h3 x hx
      refine ⟨hash, ?_⟩
      show (CmdrEntry.acceptFailed :: c.serveLog T pre rest w).getLast? = _
      rw [List.getLast?_cons, h4]
      rfl
    | stream tf bytes env =>
      unfold Commander.serve at h
      have h : Act.bind (c.runCycle pre tf bytes env).attempt (fun _ => c.serve pre rest) w = (o, w') := h
      unfold Act.bind at h
      rcases serveLog_stream T c pre tf bytes env rest w with ⟨w1, l, ⟨x, hx⟩, hl, hsub, hr, es, hes⟩ | ⟨w1, l, hh, x, hx, hl, hsub, _, hlog⟩
      · rw [hx] at h
        obtain ⟨l', lost, h1, h2, h3⟩ := ih w1 h
        refine ⟨l ++ l', lost, by rw [h1, hl, List.append_assoc], ?_, fun x hx => ?_⟩
        · rw [spawns_append, hr, List.append_assoc]
          exact hsub.append h2
        · obtain ⟨hash, h4⟩ := h3 x hx
          refine ⟨hash, ?_⟩
          rw [hes, List.getLast?_append, h4]
          rfl
      · rw [hx] at h
        cases h
        refine ⟨l, some x, hl, ?_, ?_⟩
        · rw [hlog]; exact hsub
        · intro y hy
          cases hy
          exact ⟨hh, by rw [hlog]; rfl⟩

/-! ## What the records say -/

/-- The bytes of a file, none if there is no such file. -/
def dataOf : Option File → List Byte
  | some f => f.data
  | none => []

theorem readOrEmpty_ok (p : Path) (w : World) (h : AllOk w) : wp (readOrEmpty p) w (fun o w' => o = .ok (dataOf (w.fs p)) ∧ w'.fs = w.fs ∧ AllOk w') := by
  unfold readOrEmpty readFile
  rw [wp_bind, wp_attempt, wp_bind]
  refine wp_atomicCall_ok _ _ _ h _ ?_
  intro o ho
  simp only
  rw [wp_bind, wp_peek]
  cases hf : w.fs p with
  | none =>
    simp only [id, hf]
    exact ⟨rfl, rfl, ho⟩
  | some f =>
    simp only [id, hf]
    exact ⟨rfl, rfl, ho⟩

theorem removeIgnoring_ok (p : Path) (w : World) (h : AllOk w) : wp (removeIgnoring p) w (fun o w' => o = .ok () ∧ w'.fs = (fun q => if q = p then none else w.fs q) ∧ AllOk w') := by
  unfold removeIgnoring removeFile
  rw [wp_bind, wp_attempt, wp_bind, wp_peek]
  cases hf : w.fs p with
  | none =>
    refine ⟨rfl, ?_, h⟩
    funext q
    by_cases hq : q = p
    · rw [if_pos hq, hq]; exact hf
    · rw [if_neg hq]; rfl
  | some f =>
    simp only
    refine wp_atomicCall_ok _ _ _ h _ ?_
    intro o ho
    exact ⟨rfl, rfl, ho⟩

theorem captures_differ (pre : Path) (a b : U128) : captureOut pre a ≠ captureErr pre b := by
  intro h
  have := congrArg List.getLast? h
  simp [captureOut, captureErr, List.getLast?_append] at this

/-- An execution with a working operating system. -/
theorem execute_ok (pre : Path) (cmd : List Char) (t : Nat) (ip : Ip) (env : ChildEnv) (w : World) (hw : AllOk w) (a b : U128) (cl : List (Option U128))
    (hc : w.clock = some a :: some b :: cl) :
    wp (executeWithTimeout pre cmd t ip env) w (fun o w' =>
      let fs := env.effect (withCaptures w.fs w.newMode (captureOut pre a) (captureErr pre b))
      match pollLoop env.exit (deadlineOf env.startAt t) env.rounds with
      | .completed s => o = .ok (.completed s, dataOf (fs (captureOut pre a)), dataOf (fs (captureErr pre b))) ∧ w'.fs = (fun q => if q = captureOut pre a ∨ q = captureErr pre b then none else fs q)
      | .timedOut _ => o = .ok (.timedOut, dataOf (fs (captureOut pre a)), dataOf (fs (captureErr pre b))) ∧ w'.fs = (fun q => if q = captureOut pre a ∨ q = captureErr pre b then none else fs q)
      | .waiting => o = .crash
      | _ => o = .err .io ∧ w'.fs = (fun q => if q = captureOut pre a ∨ q = captureErr pre b then none else fs q)) := by
  have hne := captures_differ pre a b
  unfold executeWithTimeout tempOutputPath spawnAndWait openTrunc
  rw [wp_bind, wp_bind, wp_nowNanos_some (h := hc)]
  simp only [wp_pure]
  rw [wp_bind, wp_bind, wp_nowNanos_some (t := b) (c := cl) (h := rfl)]
  simp only [wp_pure]
  have e1 : pre ++ (toString a.toNat).toList ++ '-' :: "out".toList = captureOut pre a := rfl
  have e2 : pre ++ (toString b.toNat).toList ++ '-' :: "err".toList = captureErr pre b := rfl
  simp only [e1, e2]
  generalize captureOut pre a = out at hne ⊢
  generalize captureErr pre b = err at hne ⊢
  rw [wp_bind, wp_attempt, wp_bind]
  refine wp_atomicCall_ok _ _ _ (by exact hw) _ ?_
  intro o1 h1
  simp only
  rw [wp_bind]
  refine wp_atomicCall_ok _ _ _ (by exact h1) _ ?_
  intro o2 h2
  simp only
  rw [wp_bind]
  refine wp_atomicCall_ok _ _ _ (by exact h2) _ ?_
  intro o3 h3
  simp only
  generalize hfs : env.effect (withCaptures w.fs w.newMode out err) = fs
  have tail : ∀ (r : Except Err CommandExit) (w4 : World), AllOk w4 → w4.fs = fs → wp (do
      let stdout ← readOrEmpty out
      let stderr ← readOrEmpty err
      removeIgnoring out
      removeIgnoring err
      let exit ← Act.ofExcept r
      pure (exit, stdout, stderr)) w4 (fun o w' => w'.fs = (fun q => if q = out ∨ q = err then none else fs q) ∧
        o = match r with | .ok x => .ok (x, dataOf (fs out), dataOf (fs err)) | .error e => .err e) := by
    intro r w4 h4 hf
    rw [wp_bind]
    refine wp_mono (readOrEmpty_ok _ _ h4) ?_
    rintro _ w5 ⟨rfl, f5, h5⟩
    simp only
    rw [wp_bind]
    refine wp_mono (readOrEmpty_ok _ _ h5) ?_
    rintro _ w6 ⟨rfl, f6, h6⟩
    simp only
    rw [wp_bind]
    refine wp_mono (removeIgnoring_ok _ _ h6) ?_
    rintro _ w7 ⟨rfl, f7, h7⟩
    simp only
    rw [wp_bind]
    refine wp_mono (removeIgnoring_ok _ _ h7) ?_
    rintro _ w8 ⟨rfl, f8, h8⟩
    simp only
    have g : w8.fs = (fun q => if q = out ∨ q = err then none else fs q) := by
      rw [f8, f7, f6, f5, hf]
      funext q
      by_cases q1 : q = err <;> by_cases q2 : q = out <;> simp [q1, q2]
    rw [f5, hf]
    cases r with
    | ok x => exact ⟨g, rfl⟩
    | error e => exact ⟨g, rfl⟩
  refine (fun (key : ∀ w3 : World, AllOk w3 → w3.fs = fs → wp (pollLoop env.exit (deadlineOf env.startAt t) env.rounds).act w3 _) => key _ (by exact h3) ?_) ?_
  · show env.effect _ = fs
    rw [← hfs]
    congr 1
    funext q
    unfold withCaptures World.setEntry
    simp only
    by_cases q1 : q = err
    · subst q1
      have hne' : ¬ q = out := fun h => hne h.symm
      simp only [hne', if_true, if_false, or_true, World.newMode]
      cases w.fs q <;> rfl
    · by_cases q2 : q = out
      · subst q2
        simp only [q1, if_true, if_false, true_or, World.newMode]
        cases w.fs q <;> rfl
      · simp [q1, q2]
  intro w3 h3 hf3
  have ends : ∀ (w4 : World), AllOk w4 → w4.fs = fs → ∀ (r : Except Err CommandExit) (Q : Out (CommandExit × List Byte × List Byte) → World → Prop),
      (∀ w', w'.fs = (fun q => if q = out ∨ q = err then none else fs q) → Q (match r with | .ok x => .ok (x, dataOf (fs out), dataOf (fs err)) | .error e => .err e) w') → wp (do
      let stdout ← readOrEmpty out
      let stderr ← readOrEmpty err
      removeIgnoring out
      removeIgnoring err
      let exit ← Act.ofExcept r
      pure (exit, stdout, stderr)) w4 Q := by
    intro w4 h4 hf r Q hQ
    refine wp_mono (tail r w4 h4 hf) ?_
    rintro o w' ⟨g1, rfl⟩
    exact hQ w' g1
  cases pollLoop env.exit (deadlineOf env.startAt t) env.rounds with
  | completed s =>
    simp only [Polled.act, wp_pure]
    exact ends w3 h3 hf3 (.ok _) _ (fun w' g => ⟨rfl, g⟩)
  | timedOut x =>
    simp only [Polled.act]
    rw [wp_bind, wp_note]
    simp only
    rw [wp_bind, wp_note]
    simp only [wp_pure]
    exact ends _ (by exact h3) (by exact hf3) (.ok _) _ (fun w' g => ⟨rfl, g⟩)
  | waitFailed =>
    simp only [Polled.act, wp_throw]
    exact ends w3 h3 hf3 (.error _) _ (fun w' g => ⟨rfl, g⟩)
  | killFailed x =>
    simp only [Polled.act, wp_throw]
    exact ends w3 h3 hf3 (.error _) _ (fun w' g => ⟨rfl, g⟩)
  | reapFailed x =>
    simp only [Polled.act]
    rw [wp_bind, wp_note]
    simp only [wp_throw]
    exact ends _ (by exact h3) (by exact hf3) (.error _) _ (fun w' g => ⟨rfl, g⟩)
  | waiting =>
    exact True.intro

theorem select_of_request {c : Commander} {tf : Bool} {bytes : List Byte} {env : ChildEnv} {h : U64} {ip : Ip} {spec : CommandSpec} (hr : request (.stream tf bytes env) = some (h, ip))
    (hg : c.cmds.get h = some spec) : c.select tf bytes = .ok (⟨h, ip⟩, spec) := by
  unfold request at hr
  unfold Commander.select Commander.read
  cases tf with
  | true => simp at hr
  | false =>
    simp only [Bool.false_eq_true, false_or, if_false] at hr ⊢
    by_cases hl : bytes.length < 24
    · rw [if_pos hl] at hr; cases hr
    · rw [if_neg hl] at hr
      rw [if_neg (show ¬ bytes.length < CMDR_DATA_SIZE from hl)]
      simp only [Option.some.injEq, Prod.mk.injEq] at hr
      obtain ⟨rfl, rfl⟩ := hr
      simp only [ofBytes_take, hg]

theorem runCommand_allowed {c : Commander} {pre : Path} {cmd : List Char} {t : Nat} {ip : Ip} {env : ChildEnv} {w : World} (h : c.allowNonRoutable = true ∨ isRoutable ip = true) :
    c.runCommand pre cmd t ip env w = match executeWithTimeout pre cmd t ip env w with
      | (.ok a, w') => (.ok (some (.ok a)), w')
      | (.err e, w') => (.ok (some (.error e)), w')
      | (.crash, w') => (.crash, w') := by
  unfold Commander.runCommand
  rw [if_neg (by rcases h with h | h <;> simp [h]), attempt_bind]
  rcases executeWithTimeout pre cmd t ip env w with ⟨o, w'⟩
  cases o <;> rfl

section

variable (T : TextCodec) (c : Commander) (pre : Path) (tf : Bool) (bytes : List Byte) (env : ChildEnv) (w : World) (h : U64) (ip : Ip) (spec : CommandSpec) (a b : U128) (cl : List (Option U128))

/-- **C86 (partial).** With a working operating system, the record of a command that has ended says whether it was successful, and shows what it left in its two capture files, if that is text. -/
theorem C86_output_partial (hr : request (.stream tf bytes env) = some (h, ip)) (hg : c.cmds.get h = some spec) (hi : c.allowNonRoutable = true ∨ isRoutable ip = true) (hw : AllOk w)
    (hc : w.clock = some a :: some b :: cl) (out err : List Char)
    (ho : fileText T (env.effect (withCaptures w.fs w.newMode (captureOut pre a) (captureErr pre b)) (captureOut pre a)) = some out)
    (he : fileText T (env.effect (withCaptures w.fs w.newMode (captureOut pre a) (captureErr pre b)) (captureErr pre b)) = some err) :
    (∀ s, pollLoop env.exit (deadlineOf env.startAt spec.timeout) env.rounds = .completed s →
      c.serveLog T pre [.stream tf bytes env] w = [.running h spec.cmd, .finished spec.cmd ip s out err]) ∧
    (∀ t, pollLoop env.exit (deadlineOf env.startAt spec.timeout) env.rounds = .timedOut t →
      c.serveLog T pre [.stream tf bytes env] w = [.running h spec.cmd, .timedOut spec.timeout spec.cmd ip out err]) := by
  have hx := execute_ok pre spec.cmd spec.timeout ip env w hw a b cl hc
  rw [serveLog_cons, select_of_request hr hg]
  simp only
  rw [runCommand_allowed hi]
  unfold wp at hx
  simp only at hx
  have shown : ∀ f x, fileText T f = some x → shownOutput T (dataOf f) = x := by
    intro f x hf
    cases f with
    | none => cases hf
    | some f =>
      have hf : T.dec f.data = some x := hf
      show (T.dec f.data).getD [] = x
      rw [hf]; rfl
  rcases hrun : executeWithTimeout pre spec.cmd spec.timeout ip env w with ⟨o, w'⟩
  rw [hrun] at hx
  constructor
  · intro s hs
    rw [hs] at hx
    obtain ⟨rfl, -⟩ := hx
    simp only [reportOf, shown _ _ ho, shown _ _ he, Commander.serveLog]
  · intro t hs
    rw [hs] at hx
    obtain ⟨rfl, -⟩ := hx
    simp only [reportOf, shown _ _ ho, shown _ _ he, Commander.serveLog]

/-- **C86**, refuted: output that is not text is not shown at all; the record is that of a command that printed nothing. -/
theorem C86_output_lost (hr : request (.stream tf bytes env) = some (h, ip)) (hg : c.cmds.get h = some spec) (hi : c.allowNonRoutable = true ∨ isRoutable ip = true) (hw : AllOk w)
    (hc : w.clock = some a :: some b :: cl)
    (ho : fileText T (env.effect (withCaptures w.fs w.newMode (captureOut pre a) (captureErr pre b)) (captureOut pre a)) = none)
    (hf : env.effect (withCaptures w.fs w.newMode (captureOut pre a) (captureErr pre b)) (captureOut pre a) ≠ none) (s : Bool)
    (hs : pollLoop env.exit (deadlineOf env.startAt spec.timeout) env.rounds = .completed s) :
    ∃ err, c.serveLog T pre [.stream tf bytes env] w = [.running h spec.cmd, .finished spec.cmd ip s [] err] := by
  have hx := execute_ok pre spec.cmd spec.timeout ip env w hw a b cl hc
  rw [serveLog_cons, select_of_request hr hg]
  simp only
  rw [runCommand_allowed hi]
  unfold wp at hx
  simp only at hx
  rcases hrun : executeWithTimeout pre spec.cmd spec.timeout ip env w with ⟨o, w'⟩
  rw [hrun, hs] at hx
  obtain ⟨rfl, -⟩ := hx
  have shown : shownOutput T (dataOf (env.effect (withCaptures w.fs w.newMode (captureOut pre a) (captureErr pre b)) (captureOut pre a))) = [] := by
    generalize env.effect (withCaptures w.fs w.newMode (captureOut pre a) (captureErr pre b)) (captureOut pre a) = f at ho hf
    cases f with
    | none => exact absurd rfl hf
    | some f =>
      have ho : T.dec f.data = none := ho
      show (T.dec f.data).getD [] = []
      rw [ho]; rfl
  simp only [reportOf, shown, Commander.serveLog]
  exact ⟨_, rfl⟩

/-- **C86**, refuted: if the commander ends while the command is running, its log names the command but not the client it was started for. -/
theorem C86_client_lost (hr : request (.stream tf bytes env) = some (h, ip)) (hg : c.cmds.get h = some spec) (hi : c.allowNonRoutable = true ∨ isRoutable ip = true) (hw : AllOk w)
    (hc : w.clock = some a :: some b :: cl) (hrun : pollLoop env.exit (deadlineOf env.startAt spec.timeout) env.rounds = .waiting) :
    c.serveLog T pre [.stream tf bytes env] w = [.running h spec.cmd] ∧ ∃ l, (c.serve pre [.stream tf bytes env] w).2.log = w.log ++ l ∧ spawns l = [(spec.cmd, ip)] := by
  have hx := execute_ok pre spec.cmd spec.timeout ip env w hw a b cl hc
  have hsp := execute_spawns (pre := pre) (cmd := spec.cmd) (t := spec.timeout) (ip := ip) (env := env) hw hc
  unfold wp at hx hsp
  simp only [hrun] at hx
  obtain ⟨-, -, l, hl, hs⟩ := hsp
  constructor
  · rw [serveLog_cons, select_of_request hr hg]
    simp only
    rw [runCommand_allowed hi]
    rcases he : executeWithTimeout pre spec.cmd spec.timeout ip env w with ⟨o, w'⟩
    rw [he] at hx
    simp only at hx
    subst hx
    rfl
  · refine ⟨l, ?_, hs⟩
    unfold Commander.serve
    rw [attempt_bind, runCycle_select, select_of_request hr hg]
    simp only
    rw [runCommand_allowed hi]
    rcases he : executeWithTimeout pre spec.cmd spec.timeout ip env w with ⟨o, w'⟩
    rw [he] at hx hl
    simp only at hx
    subst hx
    exact hl

/-- **C86**, refuted: for an address that is refused the log first says that the command is running, although nothing is started. -/
theorem C86_refused_said_running (hr : request (.stream tf bytes env) = some (h, ip)) (hg : c.cmds.get h = some spec) (hi : ¬ (c.allowNonRoutable = true ∨ isRoutable ip = true)) :
    c.serveLog T pre [.stream tf bytes env] w = [.running h spec.cmd, .refused ip] ∧ (c.serve pre [.stream tf bytes env] w).2.log = w.log := by
  have hn : c.runCommand pre spec.cmd spec.timeout ip env w = (.ok none, w) := by
    rcases runCommand_cases c pre spec.cmd spec.timeout ip env w with ⟨_, he⟩ | ⟨hy, _⟩
    · exact he
    · exact absurd hy hi
  constructor
  · rw [serveLog_cons, select_of_request hr hg]
    simp only [hn]
    rfl
  · unfold Commander.serve
    rw [attempt_bind, runCycle_select, select_of_request hr hg]
    simp only [hn]
    rfl

/-- **C86**, the capture files: for a new name and with the service's umask (`UMask=0077` in /repo/systemd/ruroco-commander.service), the command finds both files empty and readable by the commander's
user only; and when the command has ended both are gone. -/
theorem C86_captures_private (hw : AllOk w) (hc : w.clock = some a :: some b :: cl) (hu : w.umask = 0o077) (hn : w.fs (captureOut pre a) = none ∧ w.fs (captureErr pre b) = none)
    (hrun : pollLoop env.exit (deadlineOf env.startAt spec.timeout) env.rounds ≠ .waiting) :
    (∀ q, q = captureOut pre a ∨ q = captureErr pre b →
      withCaptures w.fs w.newMode (captureOut pre a) (captureErr pre b) q = some ⟨[], 0o600, false, .creator⟩ ∧ (executeWithTimeout pre spec.cmd spec.timeout ip env w).2.fs q = none) := by
  have hx := execute_ok pre spec.cmd spec.timeout ip env w hw a b cl hc
  unfold wp at hx
  simp only at hx
  intro q hq
  constructor
  · have hm : w.newMode = 0o600 := by unfold World.newMode; rw [hu]; decide
    have hq' : w.fs q = none := hq.elim (fun h => h ▸ hn.1) (fun h => h ▸ hn.2)
    unfold withCaptures
    rw [if_pos hq, hq', hm]
  · cases hp : pollLoop env.exit (deadlineOf env.startAt spec.timeout) env.rounds with
    | waiting => exact absurd hp hrun
    | completed s => rw [hp] at hx; rw [hx.2]; exact if_pos hq
    | timedOut s => rw [hp] at hx; rw [hx.2]; exact if_pos hq
    | waitFailed => rw [hp] at hx; rw [hx.2]; exact if_pos hq
    | killFailed s => rw [hp] at hx; rw [hx.2]; exact if_pos hq
    | reapFailed s => rw [hp] at hx; rw [hx.2]; exact if_pos hq

end

/-- **C86**, refuted: the text of a record does not determine what was printed where. -/
theorem C86_text_ambiguous (errText : Err → List Char) (socket cmd : List Char) (ip : Ip) (s : Bool) (x y : List Char) :
    (CmdrEntry.finished cmd ip s (x ++ "\nstderr: ".toList ++ y) []).text errText socket = (CmdrEntry.finished cmd ip s x (y ++ "\nstderr: ".toList)).text errText socket := by
  unfold CmdrEntry.text outcomeText
  generalize "\nstderr: ".toList = z
  generalize "\nstdout: ".toList = z'
  simp only [List.append_assoc, List.append_nil]

/-- **C86** Executions that went wrong stand out: of the records of executions exactly those of commands that ended successfully are written with `info`, all others with `error`. -/
theorem C86_failures_are_errors (e : CmdrEntry) (x : List Char × Ip) (h : recorded e = some x) : e.isInfo = true ↔ ∃ out err, e = .finished x.1 x.2 true out err := by
  cases e with
  | finished cmd ip s out err => cases h; cases s <;> simp [CmdrEntry.isInfo]
  | timedOut t cmd ip out err => cases h; simp [CmdrEntry.isInfo]
  | execFailed cmd ip e => cases h; simp [CmdrEntry.isInfo]
  | running _ _ => cases h
  | refused _ => cases h
  | _ => cases h

/-! ## Concrete cases -/

/-- Text: bytes below 128. -/
def asciiCodec : TextCodec := ⟨fun t => t.map (fun c => BitVec.ofNat 8 c.toNat), fun b => if b.all (fun x => decide (x.toNat < 128)) then some (b.map (fun x => Char.ofNat x.toNat)) else none⟩

/-- A command for this address that prints these bytes and is polled in these turns. -/
def exPrints (ip : Ip) (data : List Byte) (rounds : List Round) : Conn :=
  .stream false (beBytes 8 4 ++ serializeIp ip) ⟨0, some (70000000, true), rounds, fun fs q => if q = "/tmp/0-out".toList then some ⟨data, 0o600, false, .creator⟩ else fs q⟩

/-- One that prints `hi`, one that prints a byte that is not text, one during which the commander ends, and one that is refused. -/
example : exCommander.serveLog asciiCodec "/tmp/".toList [exPrints (.v4 0x08080808) [104, 105] exEnv.rounds] (exCmdrWorld []) =
      [.running 4 "ufw allow".toList, .finished "ufw allow".toList (.v4 0x08080808) true "hi".toList []] ∧
    exCommander.serveLog asciiCodec "/tmp/".toList [exPrints (.v4 0x08080808) [104, 105, 255] exEnv.rounds] (exCmdrWorld []) =
      [.running 4 "ufw allow".toList, .finished "ufw allow".toList (.v4 0x08080808) true [] []] ∧
    exCommander.serveLog asciiCodec "/tmp/".toList [exPrints (.v4 0x08080808) [104, 105] []] (exCmdrWorld []) = [.running 4 "ufw allow".toList] ∧
    exCommander.serveLog asciiCodec "/tmp/".toList [exPrints (.v4 0x7f000001) [104, 105] exEnv.rounds] (exCmdrWorld []) = [.running 4 "ufw allow".toList, .refused (.v4 0x7f000001)] := by
  decide +kernel

/-- The hypotheses of `C86_output_partial` are met by the first of these. -/
example : request (exPrints (.v4 0x08080808) [104, 105] exEnv.rounds) = some (4, .v4 0x08080808) ∧ exCommander.cmds.get 4 = some ⟨"ufw allow".toList, 30⟩ ∧ isRoutable (.v4 0x08080808) = true ∧
    pollLoop (some (70000000, true)) (deadlineOf 0 30) exEnv.rounds = .completed true := by
  decide +kernel

/-- Six connections, two of them entitled to a command: two records. -/
example : (exCommander.serveLog asciiCodec "/tmp/".toList exConns (exCmdrWorld [])).length = 9 ∧
    (exCommander.serveLog asciiCodec "/tmp/".toList exConns (exCmdrWorld [])).filterMap recorded = [("ufw allow".toList, .v4 0x08080808), ("ufw deny".toList, .v4 0x01020304)] := by
  decide +kernel

end Ruroco
