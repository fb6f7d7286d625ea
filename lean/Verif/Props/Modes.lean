import Verif.Lemmas.Within
import Verif.Props.Units
import Verif.Props.ClientHistory
import Verif.Props.Ui
import Verif.Spec.Modes

/-!
# C104: permissions of the files that are saved
-/

namespace Ruroco

open Spec (AsNew SameAccess OpenToOthers TempName OwnTemps PrivateUmask)

/-- Every file is one that was there before, with the same permissions, or has those of a new one. -/
def KeepsAccess (w w' : World) : Prop :=
  w'.umask = w.umask ∧ (OwnTemps w → OwnTemps w' ∧ ∀ q f', w'.fs q = some f' → AsNew w.umask f' ∨ ∃ f, w.fs q = some f ∧ SameAccess f f')

theorem keepsAccess_pre : Pre KeepsAccess where
  refl w := ⟨rfl, fun h => ⟨h, fun q f' hf => .inr ⟨f', hf, rfl, rfl⟩⟩⟩
  trans := by
    rintro a b c ⟨u1, h1⟩ ⟨u2, h2⟩
    refine ⟨u2.trans u1, fun h => ?_⟩
    obtain ⟨i1, k1⟩ := h1 h
    obtain ⟨i2, k2⟩ := h2 i1
    refine ⟨i2, fun q f' hf => ?_⟩
    rcases k2 q f' hf with hn | ⟨f, hf1, e1, e2⟩
    · rw [u1] at hn
      exact .inl hn
    · rcases k1 q f hf1 with hn | ⟨g, hg, d1, d2⟩
      · exact .inl ⟨by rw [← e1]; exact hn.1, by rw [← e2]; exact hn.2⟩
      · exact .inr ⟨g, hg, d1.trans e1, d2.trans e2⟩

/-- A change of a world that leaves files and umask alone. -/
theorem keepsAccess_of_eq {w w' : World} (hf : w'.fs = w.fs) (hu : w'.umask = w.umask) : KeepsAccess w w' := by
  refine ⟨hu, fun h => ⟨fun q f hq hq' => ?_, fun q f' hq => ?_⟩⟩
  · rw [hu]
    rw [hf] at hq'
    exact h q f hq hq'
  · rw [hf] at hq
    exact .inr ⟨f', hq, rfl, rfl⟩

/-- A change of the files in which each is as before or new. -/
theorem keepsAccess_of {w w' : World} (hu : w'.umask = w.umask)
    (hk : OwnTemps w → ∀ q f', w'.fs q = some f' → AsNew w.umask f' ∨ ∃ f, w.fs q = some f ∧ SameAccess f f') : KeepsAccess w w' := by
  refine ⟨hu, fun h => ⟨fun q f hq hq' => ?_, hk h⟩⟩
  rw [hu]
  rcases hk h q f hq' with hn | ⟨g, hg, e1, e2⟩
  · exact hn
  · have := h q g hq hg
    exact ⟨by rw [← e1]; exact this.1, by rw [← e2]; exact this.2⟩

theorem keeps_call {ev : Event} {eff : World → World} (he : ∀ w, KeepsAccess w (eff w)) : Always KeepsAccess (atomicCall ev eff) :=
  Always.atomicCall (fun _ _ => keepsAccess_of_eq rfl rfl) (fun _ _ => keepsAccess_pre.trans (keepsAccess_of_eq rfl rfl) (he _))

theorem keeps_look {ev : Event} : Always KeepsAccess (atomicCall ev id) := keeps_call (fun w => keepsAccess_pre.refl w)

theorem access_note {ev : Event} : Always KeepsAccess (note ev) := Always.note (fun _ => keepsAccess_of_eq rfl rfl)

theorem access_nowNanos : Always KeepsAccess nowNanos := Always.nowNanos (fun _ _ => keepsAccess_of_eq rfl rfl)

/-- One file gets these permissions. -/
theorem keepsAccess_set {w w' : World} {p : Path} {g : File} (hu : w'.umask = w.umask) (hf : ∀ q, w'.fs q = if q = p then some g else w.fs q)
    (hg : OwnTemps w → AsNew w.umask g ∨ ∃ f, w.fs p = some f ∧ SameAccess f g) : KeepsAccess w w' := by
  refine keepsAccess_of hu (fun ho q f' hq => ?_)
  rw [hf] at hq
  split at hq
  · rename_i e
    cases hq
    subst e
    exact hg ho
  · exact .inr ⟨f', hq, rfl, rfl⟩

theorem access_openTrunc {p : Path} : Always KeepsAccess (openTrunc p) := by
  refine keeps_call (fun w => ?_)
  refine keepsAccess_set (p := p) rfl (fun q => rfl) (fun _ => ?_)
  cases w.fs p with
  | none => exact .inl ⟨rfl, rfl⟩
  | some f => exact .inr ⟨f, rfl, rfl, rfl⟩

theorem access_openCreate {p : Path} : Always KeepsAccess (openCreate p) := by
  refine keeps_call (fun w => ?_)
  split
  · exact keepsAccess_pre.refl w
  · exact keepsAccess_set (p := p) rfl (fun q => rfl) (fun _ => .inl ⟨rfl, rfl⟩)

theorem keepsAccess_append (w : World) (p : Path) (bs : List Byte) : KeepsAccess w (w.append p bs) := by
  unfold World.append
  split
  · rename_i f hf
    exact keepsAccess_set (p := p) rfl (fun q => rfl) (fun _ => .inr ⟨f, hf, rfl, rfl⟩)
  · exact keepsAccess_pre.refl w

theorem access_writeAll {p : Path} {bs : List Byte} : Always KeepsAccess (writeAll p bs) := by
  have main : ∀ (w : World) (bs : List Byte) (o : List Choice), KeepsAccess w (World.append { w with log := w.log ++ [Event.file .write p], oracle := o } p bs) :=
    fun w bs o => keepsAccess_pre.trans (keepsAccess_of_eq rfl rfl) (keepsAccess_append _ _ _)
  intro w
  unfold writeAll syscall
  simp only
  rcases h : w.oracle with _ | ⟨c, o⟩
  · exact main w bs []
  · cases c with
    | ok => exact main w bs o
    | err k => exact main w (bs.take k) o
    | crash k => exact main w (bs.take k) o

theorem access_fsync {p : Path} : Always KeepsAccess (fsync p) := by
  refine keeps_call (fun w => ?_)
  split
  · rename_i f hf
    exact keepsAccess_set (p := p) rfl (fun q => rfl) (fun _ => .inr ⟨f, hf, rfl, rfl⟩)
  · exact keepsAccess_pre.refl w

theorem access_fsyncDir {p : Path} : Always KeepsAccess (fsyncDir p) := by
  unfold fsyncDir
  split
  · exact access_note
  · refine Always.bind keepsAccess_pre (Always.attempt (keeps_call (fun w => keepsAccess_of_eq rfl rfl))) (fun r => ?_)
    split
    · exact Always.pure keepsAccess_pre _
    · exact access_note

/-- Moving a temporary file of ours to `b`: `b` gets the permissions of a new file. -/
theorem access_rename {a b : Path} (ha : TempName a) : Always KeepsAccess (rename a b) := by
  intro w
  have main : ∀ f, w.fs a = some f → ∀ o, KeepsAccess w ((World.setEntry { w with log := w.log ++ [Event.file .rename b], oracle := o } b (some f)).setEntry a none) := by
    intro f hf o
    refine keepsAccess_of rfl (fun ho q f' hq => ?_)
    change (if q = a then none else if q = b then some f else w.fs q) = some f' at hq
    split at hq
    · exact nomatch hq
    · split at hq
      · cases hq
        exact .inl (ho a f ha hf)
      · exact .inr ⟨f', hq, rfl, rfl⟩
  show KeepsAccess w (Act.bind (peek a) _ w).2
  unfold Act.bind peek
  simp only
  cases hf : w.fs a with
  | none => exact keepsAccess_pre.refl w
  | some f =>
    exact wp_atomicCall (Q := fun _ w' => KeepsAccess w w') _ _ w (fun o => main f hf o) (fun o => keepsAccess_of_eq rfl rfl) (fun o => keepsAccess_of_eq rfl rfl) (fun o => main f hf o)

theorem access_writeAtomic {p : Path} {bs : List Byte} : Always KeepsAccess (writeAtomic p bs) := by
  have hR := keepsAccess_pre
  unfold writeAtomic writeAtomicWithMode
  refine Always.bind hR access_nowNanos (fun t => ?_)
  refine Always.bind hR access_openTrunc (fun _ => ?_)
  refine Always.bind hR access_writeAll (fun _ => ?_)
  refine Always.bind hR access_fsync (fun _ => ?_)
  exact Always.bind hR (access_rename ⟨_, _, rfl⟩) (fun _ => access_fsyncDir)

theorem access_readFile {p : Path} : Always KeepsAccess (readFile p) := by
  unfold readFile
  refine Always.bind keepsAccess_pre keeps_look (fun _ => Always.bind keepsAccess_pre (Always.peek keepsAccess_pre p) (fun f => ?_))
  cases f with
  | none => exact Always.throw keepsAccess_pre _
  | some f => exact Always.pure keepsAccess_pre _

/-! ## The server -/

theorem access_save {bl : Blocklist} : Always KeepsAccess bl.save :=
  Always.bind keepsAccess_pre (Always.ofExcept keepsAccess_pre _) (fun _ => access_writeAtomic)

theorem access_pathExists {p : Path} : Always KeepsAccess (pathExists p) := by
  have hR := keepsAccess_pre
  unfold pathExists
  refine Always.bind hR (Always.attempt keeps_look) (fun r => ?_)
  cases r with
  | ok _ => exact Always.bind hR (Always.peek hR p) (fun _ => Always.pure hR _)
  | error _ => exact Always.bind hR access_note (fun _ => Always.pure hR _)

theorem access_blCreate {dir : Path} {order : BlMap → BlMap} : Always KeepsAccess (Blocklist.create dir order) := by
  have hR := keepsAccess_pre
  have rest : ∀ {m : Act Blocklist}, Always KeepsAccess m → Always KeepsAccess (m >>= fun b => b.save >>= fun _ => pure b) :=
    fun hm => Always.bind hR hm (fun b => Always.bind hR access_save (fun _ => Always.pure hR _))
  unfold Blocklist.create
  simp only
  refine Always.bind hR access_pathExists (fun b => ?_)
  split
  · refine Always.bind hR access_readFile (fun bytes => ?_)
    split
    · exact rest (Always.pure hR _)
    · exact rest (Always.throw hR _)
  · exact rest (Always.pure hR _)

theorem access_start {cfg : ServerCfg} {senv : StartEnv} : Always KeepsAccess (Server.create cfg senv) := by
  have hR := keepsAccess_pre
  unfold Server.create
  refine Always.bind hR (Always.ofExcept hR _) (fun handlers => ?_)
  refine Always.bind hR access_blCreate (fun bl => ?_)
  refine Always.bind hR access_nowNanos (fun floor => ?_)
  refine Always.bind hR access_save (fun _ => ?_)
  split
  · exact Always.pure hR _
  · exact Always.throw hR _

theorem access_writeToSocket {c : U128} {d : CommanderData} : Always KeepsAccess (writeToSocket c d) := by
  have hR := keepsAccess_pre
  unfold writeToSocket
  refine Always.bind hR keeps_look (fun _ => Always.bind hR keeps_look (fun _ => ?_))
  intro w
  simp only
  split <;> exact keepsAccess_of_eq rfl rfl

theorem access_validateAndSend {s : Server} {k p : List Byte} {src : Ip} : Always KeepsAccess (s.validateAndSend k p src) := by
  have hR := keepsAccess_pre
  unfold Server.validateAndSend
  refine Always.bind hR (Always.attempt access_nowNanos) (fun now => ?_)
  split
  · exact Always.pure hR _
  · simp only
    split
    · exact Always.pure hR _
    · split
      · exact Always.pure hR _
      split
      · exact Always.pure hR _
      split
      · exact Always.pure hR _
      split
      · exact Always.pure hR _
      refine Always.bind hR ?_ (fun x => ?_)
      · unfold Server.updateBlockList
        simp only
        refine Always.bind hR (Always.attempt access_save) (fun r => ?_)
        split <;> exact Always.pure hR _
      · obtain ⟨s', r⟩ := x
        simp only
        split
        · exact Always.pure hR _
        · unfold sendCommand
          exact Always.bind hR (Always.bind hR (Always.attempt access_writeToSocket) (fun _ => Always.pure hR _)) (fun _ => Always.pure hR _)

theorem access_handle {A : Aead} {s : Server} {dg : List Byte} {src : Ip} {rd : Readings} {t : Nat} : Always KeepsAccess (s.handleDatagram A dg src rd t) := by
  have hR := keepsAccess_pre
  unfold Server.handleDatagram
  refine Always.bind hR ?_ (fun x => ?_)
  · unfold Server.iteration
    simp only
    split
    · exact Always.pure hR _
    · split
      · exact Always.pure hR _
      · split
        · exact Always.pure hR _
        · exact access_validateAndSend
  · obtain ⟨s', r⟩ := x
    cases r <;> exact Always.pure hR _

theorem access_run {A : Aead} {dir : Path} {s s' : Sys} {evs : List Ev} (h : Run A dir s evs s') (hp : .power ∉ evs) (ho : .others ∉ evs) : KeepsAccess s.w s'.w := by
  induction h with
  | nil => exact keepsAccess_pre.refl _
  | snoc hr hs ih =>
    rename_i e
    have hp' := And.intro (fun h => hp (List.mem_append_left _ h)) (fun h => hp (List.mem_append_right _ h))
    have ho' := And.intro (fun h => ho (List.mem_append_left _ h)) (fun h => ho (List.mem_append_right _ h))
    refine keepsAccess_pre.trans (ih hp'.1 ho'.1) ?_
    have fin : ∀ (w w' : World) (env : Env) (cur : List Byte), KeepsAccess (w.withEnv env cur) w' → KeepsAccess w w' := fun w w' env cur h => keepsAccess_pre.trans (keepsAccess_of_eq rfl rfl) h
    cases hs with
    | started w env cfg senv srv w' hdir hord h => exact fin _ _ env [] (by have := access_start (cfg := cfg) (senv := senv) (w.withEnv env []); rwa [h] at this)
    | startFailed w env cfg senv o w' hdir hord h hne => exact fin _ _ env [] (by have := access_start (cfg := cfg) (senv := senv) (w.withEnv env []); rwa [h] at this)
    | packet w srv env dg src rd tl s' r w' h => exact fin _ _ env (dg.take MSG_SIZE) (by have := access_handle (A := A) (s := srv) (dg := dg) (src := src) (rd := rd) (t := tl) (w.withEnv env (dg.take MSG_SIZE)); rwa [h] at this)
    | packetCrash w srv env dg src rd tl w' h => exact fin _ _ env (dg.take MSG_SIZE) (by have := access_handle (A := A) (s := srv) (dg := dg) (src := src) (rd := rd) (t := tl) (w.withEnv env (dg.take MSG_SIZE)); rwa [h] at this)
    | kill => exact keepsAccess_pre.refl _
    | power => exact absurd (List.mem_singleton.2 rfl) hp'.2
    | others => exact absurd (List.mem_singleton.2 rfl) ho'.2

/-! ## The client -/

theorem access_lock {p : Path} {held : Bool} : Always KeepsAccess (acquireLock p held) := by
  unfold acquireLock
  refine Always.bind keepsAccess_pre access_openCreate (fun _ => Always.bind keepsAccess_pre keeps_look (fun _ => ?_))
  split
  · exact Always.throw keepsAccess_pre _
  · exact Always.pure keepsAccess_pre _

theorem access_createAndInit {p : Path} {i : U128} : Always KeepsAccess (Counter.createAndInit p i) := by
  have hR := keepsAccess_pre
  unfold Counter.createAndInit Counter.read
  refine Always.bind hR (Always.attempt (Always.bind hR access_readFile (fun data => ?_))) (fun r => ?_)
  · split
    · exact Always.throw hR _
    · exact Always.pure hR _
  · split
    · exact Always.pure hR _
    · exact Always.bind hR access_writeAtomic (fun _ => Always.pure hR _)
    · exact Always.throw hR _

theorem access_create {dir : Path} {cmd : SendCmd} {env : SendEnv} : Always KeepsAccess (Sender.create dir cmd env) := by
  have hR := keepsAccess_pre
  unfold Sender.create
  refine Always.bind hR (Always.ofExcept hR _) (fun _ => ?_)
  refine Always.bind hR (Always.ofExcept hR _) (fun _ => ?_)
  split
  · exact Always.throw hR _
  · refine Always.bind hR (Always.ofExcept hR _) (fun _ => ?_)
    refine Always.bind hR access_nowNanos (fun _ => ?_)
    exact Always.bind hR access_createAndInit (fun _ => Always.pure hR _)

theorem access_inc {c : Counter} : Always KeepsAccess c.inc := by
  have hR := keepsAccess_pre
  unfold Counter.inc
  split
  · exact Always.bind hR (Always.attempt access_writeAtomic) (fun _ => Always.pure hR _)
  · exact Always.pure hR _

theorem access_sendData {A : Aead} {hash : List Char → U64} {s : Sender} {a : SockAddr} {rnd : Option (List Byte)} : Always KeepsAccess (s.sendData A hash a rnd) := by
  have hR := keepsAccess_pre
  unfold Sender.sendData
  refine Always.bind hR access_note (fun _ => ?_)
  refine Always.bind hR access_inc (fun x => ?_)
  obtain ⟨c, r⟩ := x
  simp only
  cases r with
  | error e => exact Always.pure hR _
  | ok _ =>
    simp only
    split
    · exact Always.pure hR _
    · refine Always.bind hR (Always.attempt ?_) (fun _ => Always.pure hR _)
      unfold sendUdp
      exact Always.bind hR keeps_look (fun _ => Always.bind hR keeps_look (fun _ => keeps_look))

theorem access_sendLoop {A : Aead} {hash : List Char → U64} {rnd : Nat → Option (List Byte)} (dsts : List SockAddr) : ∀ (s : Sender) (i : Nat), Always KeepsAccess (s.sendLoop A hash rnd i dsts) := by
  have hR := keepsAccess_pre
  induction dsts with
  | nil => exact fun s i => Always.pure hR _
  | cons a rest ih =>
    intro s i
    rw [Sender.sendLoop.eq_2]
    refine Always.bind hR ?_ (fun _ => Always.bind hR access_sendData (fun x => ?_))
    · unfold Sender.pause
      split
      · exact access_note
      · exact Always.pure hR _
    · obtain ⟨s', r⟩ := x
      cases r with
      | error e => exact Always.bind hR access_note (fun _ => Always.bind hR (ih _ _) (fun _ => Always.pure hR _))
      | ok _ => exact ih _ _

theorem access_runSend {A : Aead} {hash : List Char → U64} {dir : Path} {held : Bool} {cmd : SendCmd} {env : SendEnv} : Always KeepsAccess (runSend A hash dir held cmd env) := by
  have hR := keepsAccess_pre
  unfold runSend Sender.send Sender.sendToDestinations
  refine Always.bind hR access_lock (fun _ => Always.bind hR access_create (fun s => Always.bind hR (Always.ofExcept hR _) (fun dsts => Always.bind hR (access_sendLoop dsts _ _) (fun x => ?_))))
  obtain ⟨_, n⟩ := x
  simp only
  split
  · exact Always.throw hR _
  · exact Always.pure hR _

theorem access_runReseed {dir : Path} {held : Bool} : Always KeepsAccess (runReseed dir held) :=
  Always.bind keepsAccess_pre access_lock (fun _ => Always.bind keepsAccess_pre access_nowNanos (fun _ => access_writeAtomic))

theorem wp_of_run {R : World → World → Prop} {m : Act α} {w w' : World} {o : Out α} (h : Always R m) (hr : m w = (o, w')) : R w w' := by
  have := h w
  rwa [hr] at this

theorem access_crun {A : Aead} {hash : List Char → U64} {dir : Path} {w w' : World} {evs : List CEv} (h : CRun A hash dir w evs w') (hp : .power ∉ evs) (ho : .others ∉ evs) : KeepsAccess w w' := by
  induction h with
  | nil => exact keepsAccess_pre.refl _
  | snoc hr hs ih =>
    have hp' := And.intro (fun h => hp (List.mem_append_left _ h)) (fun h => hp (List.mem_append_right _ h))
    have ho' := And.intro (fun h => ho (List.mem_append_left _ h)) (fun h => ho (List.mem_append_right _ h))
    refine keepsAccess_pre.trans (ih hp'.1 ho'.1) ?_
    have fin : ∀ (w w' : World) (env : Env), KeepsAccess (w.withEnv env []) w' → KeepsAccess w w' := fun w w' env h => keepsAccess_pre.trans (keepsAccess_of_eq rfl rfl) h
    cases hs with
    | send env held cmd senv o _ h => exact fin _ _ env (by have := wp_of_run (access_runSend (A := A) (hash := hash) (dir := dir) (held := held) (cmd := cmd) (env := senv)) h; exact this)
    | reseed env held o _ h => exact fin _ _ env (by have := wp_of_run (access_runReseed (dir := dir) (held := held)) h; exact this)
    | power _ h => exact absurd (List.mem_singleton.2 rfl) hp'.2
    | others _ hfs hpend hlog => exact absurd (List.mem_singleton.2 rfl) ho'.2

/-! ## C104 -/

/-- **C104a.** Over every history of the server, whatever it receives, whatever fails and wherever it dies: each file there is has the permissions and the owner that it had before, or those of a
new file. -/
theorem C104_server_files (A : Aead) (dir : Path) (w : World) (evs : List Ev) (s : Sys) (h : Run A dir ⟨w, none⟩ evs s) (hp : .power ∉ evs) (ho : .others ∉ evs) (ht : OwnTemps w)
    (q : Path) (f' : File) (hf : s.w.fs q = some f') : AsNew w.umask f' ∨ ∃ f, w.fs q = some f ∧ SameAccess f f' :=
  ((access_run h hp ho).2 ht).2 q f' hf

/-- **C104a**, the client: sends and reseeds. -/
theorem C104_client_files (A : Aead) (hash : List Char → U64) (dir : Path) (w w' : World) (evs : List CEv) (h : CRun A hash dir w evs w') (hp : .power ∉ evs) (ho : .others ∉ evs) (ht : OwnTemps w)
    (q : Path) (f' : File) (hf : w'.fs q = some f') : AsNew w.umask f' ∨ ∃ f, w.fs q = some f ∧ SameAccess f f' :=
  ((access_crun h hp ho).2 ht).2 q f' hf

theorem asNew_private {u : Nat} (hu : PrivateUmask u) {f : File} (hf : AsNew u f) : f.mode &&& 0o077 = 0 := by
  have fin : ∀ x : Fin 512, x.val &&& 0o077 = 0o077 → (0o666 - (0o666 &&& x.val)) &&& 0o077 = 0 := by decide +kernel
  have e1 : ∀ c, c < 512 → c &&& u = c &&& (u % 512) := by
    intro c hc
    have h1 : (c &&& u) % 2 ^ 9 = (c % 2 ^ 9) &&& (u % 2 ^ 9) := Nat.and_mod_two_pow
    have h2 : c &&& u < 512 := Nat.lt_of_le_of_lt Nat.and_le_left hc
    rw [Nat.mod_eq_of_lt h2, Nat.mod_eq_of_lt (show c < 2 ^ 9 from hc)] at h1
    exact h1
  have h := fin ⟨u % 512, Nat.mod_lt _ (by decide)⟩ (by
    show u % 512 &&& 0o077 = 0o077
    rw [Nat.and_comm, ← e1 _ (by decide), Nat.and_comm]
    exact hu)
  rw [hf.1, e1 _ (by decide)]
  exact h

/-- **C104b.** With a umask like that of the shipped unit no file ever becomes accessible to others: whatever is, was, with the same permissions. *Missing*: other umasks, see `C104_start_resets`, `C104_reseed_resets` and `C104_list_resets`. -/
theorem C104_server_private_partial (A : Aead) (dir : Path) (w : World) (evs : List Ev) (s : Sys) (h : Run A dir ⟨w, none⟩ evs s) (hp : .power ∉ evs) (ho : .others ∉ evs) (ht : OwnTemps w)
    (hu : PrivateUmask w.umask) (q : Path) (f' : File) (hf : s.w.fs q = some f') (hopen : OpenToOthers f') : ∃ f, w.fs q = some f ∧ SameAccess f f' := by
  rcases C104_server_files A dir w evs s h hp ho ht q f' hf with hn | h
  · exact absurd (asNew_private hu hn) hopen
  · exact h

/-- **C104b**, the client. -/
theorem C104_client_private_partial (A : Aead) (hash : List Char → U64) (dir : Path) (w w' : World) (evs : List CEv) (h : CRun A hash dir w evs w') (hp : .power ∉ evs) (ho : .others ∉ evs)
    (ht : OwnTemps w) (hu : PrivateUmask w.umask) (q : Path) (f' : File) (hf : w'.fs q = some f') (hopen : OpenToOthers f') : ∃ f, w.fs q = some f ∧ SameAccess f f' := by
  rcases C104_client_files A hash dir w w' evs h hp ho ht q f' hf with hn | h
  · exact absurd (asNew_private hu hn) hopen
  · exact h

/-- The umask in the shipped unit of the server is such a one. -/
theorem C104_unit_umask : serverUnit.words "UMask" = ["0077".toList] ∧ PrivateUmask 0o077 := ⟨by decide +kernel, rfl⟩

/-- An action followed by one that makes the file new. -/
theorem resets_after {m : Act α} {f : α → Act β} {Q : World → Prop} (hm : Always KeepsAccess m) {w : World}
    (h : ∀ a w1, KeepsAccess w w1 → wp (f a) w1 (fun o w' => (∃ b, o = .ok b) → Q w')) : wp (m >>= f) w (fun o w' => (∃ b, o = .ok b) → Q w') := by
  rw [wp_bind]
  have h1 : wp m w (fun _ w' => KeepsAccess w w') := hm w
  refine wp_mono h1 ?_
  intro o w1 hk
  cases o with
  | ok a => exact h a w1 hk
  | err e => exact fun ⟨_, h⟩ => nomatch h
  | crash => exact fun ⟨_, h⟩ => nomatch h

theorem resets_after_of {m : Act α} {f : α → Act β} {Q : World → Prop} {K : α → Prop} (hm : Always KeepsAccess m) (hk : Gives K m) {w : World}
    (h : ∀ a, K a → ∀ w1, KeepsAccess w w1 → wp (f a) w1 (fun o w' => (∃ b, o = .ok b) → Q w')) : wp (m >>= f) w (fun o w' => (∃ b, o = .ok b) → Q w') := by
  rw [wp_bind]
  have h1 := hm w
  have h2 := hk w
  unfold wp at h2 ⊢
  rcases hx : m w with ⟨o, w1⟩
  rw [hx] at h1 h2
  cases o with
  | ok a => exact h a (h2 a rfl) w1 h1
  | err e => exact fun ⟨_, h⟩ => nomatch h
  | crash => exact fun ⟨_, h⟩ => nomatch h

/-- The same if the file is new after the first action and the second does not touch it. -/
theorem resets_before {m : Act α} {f : α → Act β} {p : Path} {u : Nat} {w : World} (hm : wp m w (fun o w' => (∃ b, o = .ok b) → ∃ g, w'.fs p = some g ∧ AsNew u g))
    (h : ∀ a w1, (f a w1).2.fs p = w1.fs p) : wp (m >>= f) w (fun o w' => (∃ b, o = .ok b) → ∃ g, w'.fs p = some g ∧ AsNew u g) := by
  rw [wp_bind]
  refine wp_mono hm ?_
  intro o w1 hk
  cases o with
  | ok a =>
    intro _
    show ∃ g, (f a w1).2.fs p = some g ∧ AsNew u g
    rw [h a w1]
    exact hk ⟨a, rfl⟩
  | err e => exact fun ⟨_, h⟩ => nomatch h
  | crash => exact fun ⟨_, h⟩ => nomatch h

theorem rename_resets {a b : Path} (hab : b ≠ a) (w : World) (ha : ∀ f, w.fs a = some f → AsNew u f) :
    wp (rename a b) w (fun o w' => (∃ x, o = .ok x) → ∃ g, w'.fs b = some g ∧ AsNew u g) := by
  unfold rename
  rw [wp_bind, wp_peek]
  simp only
  cases hf : w.fs a with
  | none => exact fun ⟨_, h⟩ => nomatch h
  | some f =>
    have fin : ∀ o : List Choice, ∃ g, ((World.setEntry { w with log := w.log ++ [Event.file .rename b], oracle := o } b (some f)).setEntry a none).fs b = some g ∧ AsNew u g := by
      intro o
      refine ⟨f, ?_, ha f hf⟩
      simp [World.setEntry, hab]
    exact wp_atomicCall (Q := fun o w' => (∃ x, o = Out.ok x) → ∃ g, w'.fs b = some g ∧ AsNew u g) _ _ w (fun o _ => fin o) (fun o h => nomatch h.choose_spec) (fun o h => nomatch h.choose_spec)
      (fun o h => nomatch h.choose_spec)

/-- Saving makes the file a new one. -/
theorem writeAtomic_resets (p : Path) (bs : List Byte) (w : World) (ht : OwnTemps w) :
    wp (writeAtomic p bs) w (fun o w' => (∃ b, o = .ok b) → ∃ f, w'.fs p = some f ∧ AsNew w.umask f) := by
  unfold writeAtomic writeAtomicWithMode
  refine resets_after access_nowNanos (fun t w1 h1 => ?_)
  refine resets_after access_openTrunc (fun _ w2 h2 => ?_)
  refine resets_after access_writeAll (fun _ w3 h3 => ?_)
  refine resets_after access_fsync (fun _ w4 h4 => ?_)
  have h := keepsAccess_pre.trans h1 (keepsAccess_pre.trans h2 (keepsAccess_pre.trans h3 h4))
  refine resets_before (rename_resets (tmpPath_ne p t).symm w4 (fun f hf => ?_)) (fun _ w5 => ?_)
  · rw [← h.1]
    exact (h.2 ht).1 _ f ⟨_, _, rfl⟩ hf
  · have := within_fsyncDir (F := fun _ => False) (E := fun _ => True) (p := p) trivial trivial w5
    exact this.2 p id

/-- **C104c.** *False as stated*: whatever permissions the replay state had, a successful start of the server leaves it with those of a new file. -/
theorem C104_start_resets (cfg : ServerCfg) (senv : StartEnv) (w w' : World) (s : Server) (ht : OwnTemps w) (h : Server.create cfg senv w = (.ok s, w')) :
    ∃ f, w'.fs (blocklistPath cfg.blDir) = some f ∧ AsNew w.umask f := by
  have main : wp (Server.create cfg senv) w (fun o w' => (∃ b, o = .ok b) → ∃ f, w'.fs (blocklistPath cfg.blDir) = some f ∧ AsNew w.umask f) := by
    unfold Server.create
    refine resets_after (Always.ofExcept keepsAccess_pre _) (fun handlers w1 h1 => ?_)
    refine resets_after_of access_blCreate gives_blCreate (fun bl hbl w2 h2 => ?_)
    refine resets_after access_nowNanos (fun floor w3 h3 => ?_)
    have h := keepsAccess_pre.trans h1 (keepsAccess_pre.trans h2 h3)
    refine resets_before ?_ (fun _ w5 => ?_)
    · unfold Blocklist.save
      rw [seed_path, hbl, ← h.1]
      refine resets_after (Always.ofExcept keepsAccess_pre _) (fun bytes w4 h4 => ?_)
      rw [← h4.1]
      exact writeAtomic_resets _ _ w4 (h4.2 (h.2 ht).1).1
    · split <;> rfl
  unfold wp at main
  rw [h] at main
  exact main ⟨s, rfl⟩

/-- **C104c**, the client: whatever permissions the counter had, a successful reseed leaves it with those of a new file. -/
theorem C104_reseed_resets (dir : Path) (held : Bool) (w w' : World) (ht : OwnTemps w) (h : runReseed dir held w = (.ok (), w')) : ∃ f, w'.fs (counterPath dir) = some f ∧ AsNew w.umask f := by
  have main : wp (runReseed dir held) w (fun o w' => (∃ b, o = .ok b) → ∃ f, w'.fs (counterPath dir) = some f ∧ AsNew w.umask f) := by
    unfold runReseed
    refine resets_after access_lock (fun _ w1 h1 => ?_)
    refine resets_after access_nowNanos (fun _ w2 h2 => ?_)
    have h := keepsAccess_pre.trans h1 h2
    rw [← h.1]
    exact writeAtomic_resets (counterPath dir) _ w2 (h.2 ht).1
  unfold wp at main
  rw [h] at main
  exact main ⟨(), rfl⟩

/-- **C104c**, the list of commands: where it is saved and nothing fails, it has the permissions of a new file, whatever they were. -/
theorem C104_list_resets (C : ListCodec) (p : Path) (l : List CommandData) (b : List Byte) (w : World) (ht : OwnTemps w) (hb : C.enc l = some b) (hok : (writeAtomic p b w).1 = .ok ()) :
    ∃ f, (saveCommands C p l w).2.fs p = some f ∧ AsNew w.umask f := by
  have h := writeAtomic_resets p b w ht
  unfold wp at h
  have e : (saveCommands C p l w).2 = (writeAtomic p b w).2 := by
    unfold saveCommands
    rw [hb]
    show (Act.bind (Act.attempt _) _ w).2 = _
    unfold Act.bind Act.attempt
    rcases hx : writeAtomic p b w with ⟨o, w'⟩
    rw [hx] at hok
    cases hok
    rfl
  rw [e]
  exact h ⟨(), hok⟩

/-- A counter that its user has made private; the usual umask. -/
def exPrivateCounter : World :=
  ⟨fun q => if q = "/c/counter".toList then some ⟨List.replicate 16 0, 0o600, true, .creator⟩ else none, fun _ => [], [some 5, some 6], [], 0o022, [], []⟩

theorem exPrivateCounter_temps : OwnTemps exPrivateCounter := by
  rintro q f ⟨p, t, rfl⟩ hf
  have hl : (tmpPath p t).getLast? = some 'p' := by
    unfold tmpPath
    rw [List.getLast?_append]
    rw [show ('.' :: (toString t.toNat).toList ++ ".tmp".toList) = ('.' :: (toString t.toNat).toList) ++ ".tmp".toList from rfl, List.getLast?_append]
    rfl
  have hne : tmpPath p t ≠ "/c/counter".toList := by
    intro h
    rw [h] at hl
    exact absurd hl (by decide)
  change (if tmpPath p t = "/c/counter".toList then _ else none) = some f at hf
  rw [if_neg hne] at hf
  exact nomatch hf

/-- **C104** is false as stated: a reseed makes a private counter readable for everybody. -/
theorem C104_private_file_opened : ∃ (w w' : World) (f f' : File), OwnTemps w ∧ w.fs "/c/counter".toList = some f ∧ ¬ OpenToOthers f ∧ runReseed "/c".toList false w = (.ok (), w') ∧
    w'.fs "/c/counter".toList = some f' ∧ f'.mode = 0o644 ∧ OpenToOthers f' := by
  have hrun : (runReseed "/c".toList false exPrivateCounter).1 = .ok () := by decide +kernel
  refine ⟨exPrivateCounter, (runReseed "/c".toList false exPrivateCounter).2, _, ⟨beBytes 16 5, 0o644, true, .creator⟩, exPrivateCounter_temps, rfl, by unfold OpenToOthers; decide, ?_, by decide +kernel, rfl, by unfold OpenToOthers; decide⟩
  rw [← hrun]

/-- Non-vacuity of C104a and C104b: a history of the server with the umask of its unit, from a disk without files. -/
example : ∃ s, Run toyAead "/s".toList ⟨{ exEmpty with umask := 0o077 }, none⟩ [exStart 1000 []] s ∧ s.srv.isSome ∧ OwnTemps { exEmpty with umask := 0o077 } ∧ PrivateUmask 0o077 ∧
    (s.w.fs (blocklistPath "/s".toList)).map (·.mode) = some 0o600 := by
  refine ⟨exec toyAead ⟨{ exEmpty with umask := 0o077 }, none⟩ (exStart 1000 []), ?_, by decide +kernel, ?_, by unfold PrivateUmask; decide, by decide +kernel⟩
  · apply run_exec [exStart 1000 []]
    exact ⟨⟨rfl, rfl⟩, trivial⟩
  · intro q f _ hf
    exact nomatch hf

end Ruroco
