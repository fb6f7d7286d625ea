import Verif.Lemmas.Within
import Verif.Model.UiFrames
import Verif.Props.ClientHistory
import Verif.Props.Ui

/-!
# C85: the client touches only its own files and talks only to the server it is told to talk to
-/

namespace Ruroco

open Spec

variable {A : Aead} {hash : List Char → U64} {dir : Path}

theorem clientFile_counter : ClientFile dir (counterPath dir) := .inl rfl

theorem clientFile_tmp (t : U128) : ClientFile dir (tmpPath (counterPath dir) t) := .inr (.inl ⟨t.toNat, by simp [tmpPath, counterPath]⟩)

theorem within_send {F : Path → Prop} {s : Sender} {env : SendEnv} {address : List Char} (hp : F s.counter.path) (ht : ∀ t : U128, F (tmpPath s.counter.path t))
    (ha : ensurePort address DEFAULT_PORT = .ok s.cmd.address) : Always (Within F (ClientMay F (ResolvesTo address env.resolve))) (s.send A hash env) := by
  have hR := within_pre F (ClientMay F (ResolvesTo address env.resolve))
  unfold Sender.send
  refine always_bind_of hR (Always.ofExcept hR _) gives_ofExcept (fun dsts hd => ?_)
  obtain ⟨xs, hxs, hin⟩ := destinations_resolved hd
  unfold Sender.sendToDestinations
  refine Always.bind hR (within_sendLoop hp ht (fun a h => ⟨s.cmd.address, xs, ha, hxs, hin a h⟩)) (fun x => ?_)
  obtain ⟨_, n⟩ := x
  simp only
  by_cases hn : dsts ≠ [] ∧ n = dsts.length
  · rw [if_pos hn]; exact Always.throw hR _
  · rw [if_neg hn]; exact Always.pure hR _

theorem within_createSend {F : Path → Prop} {cmd : SendCmd} {env : SendEnv} (hp : F (counterPath dir)) (ht : ∀ t : U128, F (tmpPath (counterPath dir) t)) :
    Always (Within F (ClientMay F (ResolvesTo cmd.address env.resolve))) (do let s ← Sender.create dir cmd env; s.send A hash env) := by
  refine always_bind_of (within_pre _ _) (within_create hp ht) gives_create (fun s hs => ?_)
  exact within_send (by rw [hs.1]; exact hp) (by rw [hs.1]; exact ht) hs.2.1

/-- **C85**, a send of the command line client. -/
theorem C85_send_confined (held : Bool) (cmd : SendCmd) (env : SendEnv) (w : World) :
    Within (ClientFile dir) (ClientMay (ClientFile dir) (ResolvesTo cmd.address env.resolve)) w (runSend A hash dir held cmd env w).2 := by
  revert w
  unfold runSend
  exact Always.bind (within_pre _ _) (within_acquireLock (.inr (.inr rfl))) (fun _ => within_createSend clientFile_counter clientFile_tmp)

/-- **C85**, a reseed: nothing is sent to anyone. -/
theorem C85_reseed_confined (held : Bool) (w : World) : Within (ClientFile dir) (ClientMay (ClientFile dir) (fun _ _ => False)) w (runReseed dir held w).2 := by
  revert w
  unfold runReseed Counter.reseed Counter.write
  refine Always.bind (within_pre _ _) (within_acquireLock (.inr (.inr rfl))) (fun _ => ?_)
  exact Always.bind (within_pre _ _) within_nowNanos (fun _ => within_writeAtomic clientFile_counter clientFile_tmp)

theorem Spec.ClientMay.mono {F F' : Path → Prop} {D D' : Ip → Nat → Prop} (hF : ∀ q, F q → F' q) (hD : ∀ ip port, D ip port → D' ip port) {e : Event} (h : ClientMay F D e) : ClientMay F' D' e := by
  cases h with
  | file op q h => exact .file op q (hF q h)
  | statFailed q h => exact .statFailed q (hF q h)
  | dirSyncFailed q h => exact .dirSyncFailed q (hF q h)
  | removeFailed q h => exact .removeFailed q (hF q h)
  | udpSocket => exact .udpSocket
  | udp ip port c bs h => exact .udp ip port c bs (hD _ _ h)
  | sendTo ip port h => exact .sendTo ip port (hD _ _ h)
  | sendFailed ip port h => exact .sendFailed ip port (hD _ _ h)
  | sleep ms => exact .sleep ms

/-- **C85** Whatever happens on the client's machine, in any order, with failures and deaths anywhere: everything the client does is an operation on one of its three kinds of files, or concerns an
address that one of the sends named; -/
theorem C85_history_confined (w w' : World) (evs : List CEv) (h : CRun A hash dir w evs w') :
    ∃ l, w'.log = w.log ++ l ∧ ∀ e ∈ l, ClientMay (ClientFile dir) (NamedIn evs) e := by
  induction h with
  | nil => exact ⟨[], by simp, nofun⟩
  | snoc hr hs ih =>
    rename_i s1 s2 evs e
    obtain ⟨l, hl, hall⟩ := ih
    have old : ∀ x ∈ l, ClientMay (ClientFile dir) (NamedIn (evs ++ [e])) x := by
      intro x hx
      refine (hall x hx).mono (fun _ h => h) ?_
      rintro ip port ⟨a, b, c, d, h1, h2⟩
      exact ⟨a, b, c, d, by simp [h1], h2⟩
    have same : s2.log = s1.log → ∃ l, s2.log = w.log ++ l ∧ ∀ x ∈ l, ClientMay (ClientFile dir) (NamedIn (evs ++ [e])) x := fun h => ⟨l, by rw [h, hl], old⟩
    have more : ∀ D : Ip → Nat → Prop, (∀ ip port, D ip port → NamedIn (evs ++ [e]) ip port) → Within (ClientFile dir) (ClientMay (ClientFile dir) D) s1 s2 →
        ∃ l, s2.log = w.log ++ l ∧ ∀ x ∈ l, ClientMay (ClientFile dir) (NamedIn (evs ++ [e])) x := by
      rintro D hD ⟨⟨l', h1, h2⟩, -⟩
      refine ⟨l ++ l', by rw [h1, hl, List.append_assoc], fun x hx => ?_⟩
      rcases List.mem_append.1 hx with hx | hx
      · exact old x hx
      · exact (h2 x hx).mono (fun _ h => h) hD
    cases hs with
    | send env held cmd senv o w' h =>
      have := C85_send_confined (A := A) (hash := hash) (dir := dir) held cmd senv (s1.withEnv env [])
      rw [h] at this
      exact more _ (fun ip port hd => ⟨env, held, cmd, senv, by simp, hd⟩) this
    | reseed env held o w' h =>
      have := C85_reseed_confined (dir := dir) held (s1.withEnv env [])
      rw [h] at this
      exact more _ (fun ip port hd => hd.elim) this
    | power w' h => exact same h.log
    | others w' h1 h2 h3 => exact same h3

/-- and as long as nobody else changes the disk and the power stays on, every other file is as it was. -/
theorem C85_history_files (w w' : World) (evs : List CEv) (h : CRun A hash dir w evs w') (hp : CEv.power ∉ evs) (ho : CEv.others ∉ evs) (q : Path) (hq : ¬ ClientFile dir q) :
    w'.fs q = w.fs q := by
  induction h with
  | nil => rfl
  | snoc hr hs ih =>
    rename_i s1 s2 evs e
    rw [← ih (fun h => hp (by simp [h])) (fun h => ho (by simp [h]))]
    cases hs with
    | send env held cmd senv o w' h =>
      have := (C85_send_confined (A := A) (hash := hash) (dir := dir) held cmd senv (s1.withEnv env [])).2 q hq
      rw [h] at this
      exact this
    | reseed env held o w' h =>
      have := (C85_reseed_confined (dir := dir) held (s1.withEnv env [])).2 q hq
      rw [h] at this
      exact this
    | power w' h => exact absurd (by simp) hp
    | others w' h1 h2 h3 => exact absurd (by simp) ho

/-! ## The graphical client -/

theorem uiFile_tempKey (d : List Char) : UiFile dir (tempKeyPath dir d) := .inr (.inr (.inr ⟨d, rfl⟩))

theorem uiFile_listTmp (t : U128) : UiFile dir (tmpPath (listPath dir) t) := .inr (.inr (.inl ⟨t.toNat, by simp [tmpPath, listPath]⟩))

theorem within_save {C : ListCodec} {l : List CommandData} {D : Ip → Nat → Prop} : Always (Within (UiFile dir) (ClientMay (UiFile dir) D)) (saveCommands C (listPath dir) l) := by
  have hR := within_pre (UiFile dir) (ClientMay (UiFile dir) D)
  unfold saveCommands
  split
  · exact Always.pure hR _
  · exact Always.bind hR (Always.attempt (within_writeAtomic (.inr (.inl rfl)) uiFile_listTmp)) (fun _ => Always.pure hR _)

theorem within_newTempFile {ds : List (List Char)} {D : Ip → Nat → Prop} : Always (Within (UiFile dir) (ClientMay (UiFile dir) D)) (newTempFile dir ds) := by
  have hR := within_pre (UiFile dir) (ClientMay (UiFile dir) D)
  induction ds with
  | nil => exact Always.throw hR _
  | cons d ds ih =>
    unfold newTempFile
    refine Always.bind hR (Always.peek hR _) (fun f => ?_)
    cases f with
    | some f => exact ih
    | none =>
      refine Always.bind hR (within_call (.file _ _ (uiFile_tempKey d)) (fun _ => rfl) (fun w q hq => ?_)) (fun _ => Always.pure hR _)
      simp [World.setEntry, ne_of_not (F := UiFile dir) (uiFile_tempKey d) hq]

theorem gives_newTempFile {ds : List (List Char)} : Gives (UiFile dir) (newTempFile dir ds) := by
  induction ds with
  | nil => exact Gives.throw
  | cons d ds ih =>
    unfold newTempFile
    refine Gives.bind (fun f => ?_)
    cases f with
    | some f => exact ih
    | none => exact Gives.bind (fun _ => Gives.pure (uiFile_tempKey d))

theorem within_execWithKey {T : TextCodec} {env : ExecEnv} {key : List Char} {c : CommandData} :
    Always (Within (UiFile dir) (ClientMay (UiFile dir) (ResolvesTo c.address env.resolve))) (execWithKey A hash T dir env key c) := by
  have hR := within_pre (UiFile dir) (ClientMay (UiFile dir) (ResolvesTo c.address env.resolve))
  unfold execWithKey
  split
  · refine always_bind_of hR within_newTempFile gives_newTempFile (fun p hp => ?_)
    refine Always.bind hR (Always.attempt (Always.bind hR (within_writeAll hp (.file _ _ hp)) (fun _ => ?_))) (fun r => ?_)
    · unfold sendWithKeyFile
      refine Always.bind hR (Always.attempt (within_readFile (.file _ _ hp))) (fun raw => ?_)
      exact within_createSend (cmd := c.toSend) (.inl clientFile_counter) (fun t => .inl (clientFile_tmp t))
    · exact Always.bind hR (within_removeIgnoring hp (.file _ _ hp) (.removeFailed _ hp)) (fun _ => Always.ofExcept hR _)
  · exact Always.throw hR _

/-- **C85**, the start of the graphical client: -/
theorem C85_ui_start (C : ListCodec) (w : World) : Within (fun _ => False) (· = .file .read (dir ++ "/commands_list.toml".toList)) w (Ui.start C dir w).2 := by
  revert w
  have hR := within_pre (fun _ => False) (· = Event.file .read (dir ++ "/commands_list.toml".toList))
  unfold Ui.start loadCommands
  exact Always.bind hR (Always.bind hR (Always.attempt (within_readFile rfl)) (fun _ => Always.pure hR _)) (fun _ => Always.pure hR _)

/-- **C85**, every action in the graphical client: files of the client only, and datagrams only when a command is executed, to the addresses that command names. -/
theorem C85_ui_confined (C : ListCodec) (T : TextCodec) (u : Ui) (a : UiAction) (w : World) :
    Within (UiFile dir) (ClientMay (UiFile dir) (NamedBy a)) w (u.act C A hash T dir a w).2 := by
  revert w
  have hR := within_pre (UiFile dir) (ClientMay (UiFile dir) (NamedBy a))
  cases a with
  | add => exact Always.bind hR (Always.bind hR within_save (fun _ => Always.pure hR _)) (fun _ => Always.pure hR _)
  | delete c => exact Always.bind hR (Always.bind hR within_save (fun _ => Always.pure hR _)) (fun _ => Always.pure hR _)
  | exec env key c =>
    refine Always.bind hR (Always.attempt within_execWithKey) (fun r => ?_)
    cases r <;> exact Always.pure hR _
  | edit t => exact Always.pure hR _
  | save => exact Always.bind hR (Always.bind hR within_save (fun _ => Always.pure hR _)) (fun _ => Always.pure hR _)
  | reset => exact Always.pure hR _

theorem within_actOpt {C : ListCodec} {T : TextCodec} {s : Screen} {a : Option UiAction} {D : Ip → Nat → Prop} (h : ∀ x, a = some x → ∀ ip port, NamedBy x ip port → D ip port) :
    Always (Within (UiFile dir) (ClientMay (UiFile dir) D)) (s.actOpt C A hash T dir a) := by
  have hR := within_pre (UiFile dir) (ClientMay (UiFile dir) D)
  cases a with
  | none => exact Always.pure hR _
  | some a =>
    refine Always.bind hR (fun w => ?_) (fun _ => Always.pure hR _)
    exact (C85_ui_confined C T s.ui a w).mono (fun _ h => h) (fun _ he => he.mono (fun _ h => h) (h a rfl))

/-- **C85**, every frame: nothing is sent unless the button of a command is pressed in it, and then only to the addresses that command names. -/
theorem C85_frame_confined (C : ListCodec) (T : TextCodec) (s : Screen) (f : Frame) (w : World) :
    Within (UiFile dir) (ClientMay (UiFile dir) (NamedInFrame f)) w (s.frame C A hash T dir f w).2 := by
  revert w
  have hR := within_pre (UiFile dir) (ClientMay (UiFile dir) (NamedInFrame f))
  show Always _ _
  unfold Screen.frame
  simp only
  split
  · refine Always.bind hR ?_ (fun _ => Always.pure hR _)
    unfold Screen.dashboardConfig
    refine Always.bind hR (within_actOpt ?_) (fun _ => Always.bind hR (within_actOpt ?_) (fun _ => Always.bind hR (within_actOpt ?_) (fun _ => Always.pure hR _)))
    · intro x hx ip port hn
      cases hf : f.configEdit <;> simp [hf] at hx
      subst hx; exact hn.elim
    · intro x hx ip port hn
      split at hx <;> cases hx
      exact hn.elim
    · intro x hx ip port hn
      split at hx <;> cases hx
      exact hn.elim
  · unfold Screen.create
    simp only
    split
    · refine Always.bind hR ?_ (fun _ => Always.pure hR _)
      exact within_actOpt (a := some _) (by rintro x ⟨⟩ ip port hn; exact hn.elim)
    · exact Always.pure hR _
  · unfold Screen.execute
    refine Always.bind hR (within_actOpt ?_) (fun s => within_actOpt ?_)
    · intro x hx ip port hn
      cases hf : f.delete <;> simp [hf] at hx
      subst hx; exact hn.elim
    · intro x hx ip port hn
      cases hf : f.exec <;> simp [hf] at hx
      subst hx
      exact ⟨_, _, hf, hn⟩

/-! ## Non-vacuity -/

/-- The history of C32 sends datagrams; -/
example : (exClientEnd.log.filter (fun e => match e with | .udp .. => true | _ => false)).length = 5 := by decide +kernel

/-- C85 applies to it. -/
example : ∀ e ∈ exClientEnd.log, ClientMay (ClientFile "/c".toList) (NamedIn exClientHistory) e := by
  obtain ⟨l, h1, h2⟩ := C85_history_confined (A := toyAead) (hash := fun _ => 7) (dir := "/c".toList) (exDisk none []) exClientEnd exClientHistory
    (cexec_run _ _ _ _ (by simp [exClientHistory, exSend]) _)
  have h0 : (exDisk none []).log = [] := rfl
  rw [h0, List.nil_append] at h1
  rw [h1]
  exact h2

/-- Executing a saved command sends a datagram to the address it names. -/
example : (((⟨[], [], fun _ => none⟩ : Ui).act toyListCodec toyAead (fun n => BitVec.ofNat 64 n.length) toyTextCodec "/c".toList (.exec exExecEnv exClientKey exUi1) (exUiWorld [])).2.log.filterMap
      (fun e => match e with | .udp ip port _ _ => some (ip, port) | _ => none)) = [(.v4 0x0a000002, 80)] ∧ NamedBy (.exec exExecEnv exClientKey exUi1) (.v4 0x0a000002) 80 :=
  ⟨by decide +kernel, "h:80".toList, [⟨.v4 0x0a000002, 80⟩], by decide +kernel, rfl, by simp⟩

end Ruroco
