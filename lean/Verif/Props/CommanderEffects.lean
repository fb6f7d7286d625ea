import Verif.Spec.CommanderEffects
import Verif.Lemmas.Within
import Verif.Props.Commander

/-!
# C87: apart from starting commands, the commander touches only its own files
-/

namespace Ruroco

open Spec

section

variable {F : Path → Prop} {E : Event → Prop}

theorem within_chmod {p : Path} {m : Nat} (hp : F p) (hE : E (.file .chmod p)) : Always (Within F E) (chmod p m) := by
  unfold chmod
  refine Always.bind (within_pre F E) (Always.peek (within_pre F E) p) (fun f => ?_)
  cases f with
  | none => exact Always.throw (within_pre F E) _
  | some f => exact within_call hE (fun _ => rfl) (fun w q hq => by simp [World.setFile, ne_of_not hp hq])

theorem within_chown {p : Path} {u g : List Char} (hp : F p) (hE : E (.file .chown p)) : Always (Within F E) (chown p u g) := by
  unfold chown
  refine Always.bind (within_pre F E) (Always.peek (within_pre F E) p) (fun f => ?_)
  cases f with
  | none => exact Always.throw (within_pre F E) _
  | some f => exact within_call hE (fun _ => rfl) (fun w q hq => by simp [World.setFile, ne_of_not hp hq])

theorem within_bindUnix {p : Path} (hp : F p) (hE : E (.file .bind p)) : Always (Within F E) (bindUnix p) := by
  unfold bindUnix
  refine Always.bind (within_pre F E) (Always.peek (within_pre F E) p) (fun f => ?_)
  cases f with
  | some f => exact Always.throw (within_pre F E) _
  | none => exact within_call hE (fun _ => rfl) (fun w q hq => by simp [World.setEntry, ne_of_not hp hq])

theorem within_setUmask {m : Nat} : Always (Within F E) (setUmask m) := fun w => ⟨⟨[], by simp [setUmask], nofun⟩, fun _ _ => rfl⟩

end

/-- **C87**, starting: only the directory of the socket is created, and only the socket and the lock file beside it are touched. -/
theorem C87_start_confined (c : Commander) (held names : Bool) (w : World) :
    Within (fun q => q = c.socketPath ∨ q = dirname c.socketPath ++ "commander.lock".toList) (ListenerMay c.socketPath) w (c.createListener held names w).2 := by
  revert w
  show Always _ _
  have hR := within_pre (fun q => q = c.socketPath ∨ q = dirname c.socketPath ++ "commander.lock".toList) (ListenerMay c.socketPath)
  unfold Commander.createListener parent
  by_cases h : c.socketPath = [] ∨ c.socketPath = ['/']
  · rw [if_pos h]
    exact Always.throw hR _
  · rw [if_neg h]
    simp only
    refine Always.bind hR (within_look .mkdir) (fun _ => ?_)
    refine Always.bind hR ?_ (fun _ => ?_)
    · unfold acquireLock
      refine Always.bind hR (within_openCreate (.inr rfl) (.lock _)) (fun _ => Always.bind hR (within_look (.lock _)) (fun _ => ?_))
      split
      · exact Always.throw hR _
      · exact Always.pure hR _
    refine Always.bind hR (within_removeIgnoring (.inl rfl) (.socket _) .removeFailed) (fun _ => ?_)
    refine Always.bind hR within_setUmask (fun _ => ?_)
    refine Always.bind hR (Always.attempt (within_bindUnix (.inl rfl) (.socket _))) (fun _ => ?_)
    refine Always.bind hR within_setUmask (fun _ => Always.bind hR (Always.ofExcept hR _) (fun _ => ?_))
    refine Always.bind hR (within_chmod (.inl rfl) (.socket _)) (fun _ => ?_)
    unfold changeOwnership
    split
    · exact Always.throw hR _
    · exact within_chown (.inl rfl) (.socket _)

theorem captureFile_out (pre : Path) (n : U128) : CaptureFile pre (pre ++ (toString n.toNat).toList ++ '-' :: "out".toList) := ⟨n.toNat, .inl rfl⟩

theorem captureFile_err (pre : Path) (n : U128) : CaptureFile pre (pre ++ (toString n.toNat).toList ++ '-' :: "err".toList) := ⟨n.toNat, .inr rfl⟩

section

variable {pre : Path} {starts : List (List Char × Ip)} {F : Path → Prop} {env : ChildEnv}

local notation "W" => Within (fun q => F q ∨ CaptureFile pre q) (CommanderMay pre starts)

theorem within_spawnAndWait {cmd : List Char} {t : Nat} {ip : Ip} {out err : Path} (ho : CaptureFile pre out) (he : CaptureFile pre err) (hs : (cmd, ip) ∈ starts)
    (hN : ∀ fs q, ¬ F q → env.effect fs q = fs q) : Always W (spawnAndWait cmd t ip out err env) := by
  have hR := within_pre (fun q => F q ∨ CaptureFile pre q) (CommanderMay pre starts)
  unfold spawnAndWait
  refine Always.bind hR (within_openTrunc (.inr ho) (.file _ _ ho)) (fun _ => ?_)
  refine Always.bind hR (within_openTrunc (.inr he) (.file _ _ he)) (fun _ => ?_)
  refine Always.bind hR (within_call (.spawn _ _ hs) (fun _ => rfl) (fun w q hq => hN _ q (fun h => hq (.inl h)))) (fun _ => ?_)
  cases pollLoop env.exit (deadlineOf env.startAt t) env.rounds with
  | completed s => exact Always.pure hR _
  | timedOut x => exact Always.bind hR (within_note .kill) (fun _ => Always.bind hR (within_note .reap) (fun _ => Always.pure hR _))
  | waitFailed => exact Always.throw hR _
  | killFailed x => exact Always.throw hR _
  | reapFailed x => exact Always.bind hR (within_note .kill) (fun _ => Always.throw hR _)
  | waiting => exact fun w => hR.refl w

theorem within_readOrEmpty {p : Path} (hp : CaptureFile pre p) : Always W (readOrEmpty p) := by
  have hR := within_pre (fun q => F q ∨ CaptureFile pre q) (CommanderMay pre starts)
  unfold readOrEmpty
  refine Always.bind hR (Always.attempt (within_readFile (.file _ _ hp))) (fun r => ?_)
  cases r <;> exact Always.pure hR _

theorem within_execute {cmd : List Char} {t : Nat} {ip : Ip} (hs : (cmd, ip) ∈ starts) (hN : ∀ fs q, ¬ F q → env.effect fs q = fs q) : Always W (executeWithTimeout pre cmd t ip env) := by
  have hR := within_pre (fun q => F q ∨ CaptureFile pre q) (CommanderMay pre starts)
  have name : ∀ kind, Always W (tempOutputPath pre kind) := fun kind => Always.bind hR within_nowNanos (fun _ => Always.pure hR _)
  unfold executeWithTimeout
  refine always_bind_of hR (name _) (K := CaptureFile pre) (Gives.bind (fun n => Gives.pure (captureFile_out pre n))) (fun out ho => ?_)
  refine always_bind_of hR (name _) (K := CaptureFile pre) (Gives.bind (fun n => Gives.pure (captureFile_err pre n))) (fun err he => ?_)
  refine Always.bind hR (Always.attempt (within_spawnAndWait ho he hs hN)) (fun _ => ?_)
  refine Always.bind hR (within_readOrEmpty ho) (fun _ => Always.bind hR (within_readOrEmpty he) (fun _ => ?_))
  refine Always.bind hR (within_removeIgnoring (.inr ho) (.file _ _ ho) (.removeFailed _ ho)) (fun _ => ?_)
  refine Always.bind hR (within_removeIgnoring (.inr he) (.file _ _ he) (.removeFailed _ he)) (fun _ => ?_)
  exact Always.bind hR (Always.ofExcept hR _) (fun _ => Always.pure hR _)

end

/-- **C87** While it serves connections, whatever they contain, whatever fails and wherever it dies, the commander touches nothing but capture files and starts nothing but the commands the connections
are entitled to; a file that is not a capture file changes only if it is among the files `F` that the commands change. -/
theorem C87_serving_confined (c : Commander) (pre : Path) (conns : List Conn) (F : Path → Prop)
    (hN : ∀ tf bytes env, Conn.stream tf bytes env ∈ conns → ∀ fs q, ¬ F q → env.effect fs q = fs q) (w : World) :
    Within (fun q => F q ∨ CaptureFile pre q) (CommanderMay pre (conns.filterMap (commandFor c))) w (c.serve pre conns w).2 := by
  suffices h : ∀ starts, (∀ x ∈ conns.filterMap (commandFor c), x ∈ starts) → Always (Within (fun q => F q ∨ CaptureFile pre q) (CommanderMay pre starts)) (c.serve pre conns) from
    h _ (fun _ h => h) w
  intro starts hst
  have hR := within_pre (fun q => F q ∨ CaptureFile pre q) (CommanderMay pre starts)
  induction conns with
  | nil => exact Always.pure hR _
  | cons k rest ih =>
    have hrest := ih (fun tf bytes env hm => hN tf bytes env (List.mem_cons_of_mem _ hm)) (fun x hx => hst x (by
      rw [List.filterMap_cons]
      cases commandFor c k with
      | none => exact hx
      | some y => exact List.mem_cons_of_mem _ hx))
    cases k with
    | acceptFailed => exact hrest
    | stream tf bytes env =>
      unfold Commander.serve
      refine Always.bind hR (Always.attempt ?_) (fun _ => hrest)
      rcases runCycle_cases c pre tf bytes env with ⟨hn, ⟨e, he⟩ | he⟩ | ⟨hh, ip, spec, _, hg, _, hc, he⟩
      · rw [he]; exact Always.throw hR _
      · rw [he]; exact Always.pure hR _
      · rw [he]
        refine Always.bind hR (Always.attempt (within_execute (hst _ ?_) (hN tf bytes env (by simp)))) (fun _ => Always.pure hR _)
        rw [List.filterMap_cons_some hc]
        simp

/-- A command that creates a file: it is there afterwards, the capture files are gone, and nothing else has changed. -/
example : ((exCommander.serve "/tmp/".toList [.stream false (beBytes 8 4 ++ serializeIp (.v4 0x08080808)) { exEnv with effect := fun fs q => if q = "/x".toList then some ⟨[1], 0o600, false, .creator⟩ else fs q }]
    (exCmdrWorld [])).2.fs "/x".toList).isSome = true ∧
    ∀ (fs : Path → Option File) (q : Path), ¬ q = "/x".toList → (fun q => if q = "/x".toList then some (⟨[1], 0o600, false, .creator⟩ : File) else fs q) q = fs q :=
  ⟨by decide +kernel, fun fs q hq => if_neg hq⟩

/-- Starting creates the socket. -/
example : (exCommander.createListener false true (exCmdrWorld [])).1 = .ok () ∧ ((exCommander.createListener false true (exCmdrWorld [])).2.fs "/run/ruroco/ruroco.socket".toList).isSome = true := by
  decide +kernel

end Ruroco
