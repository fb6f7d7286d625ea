import Verif.Model.TwoServers
import Verif.Props.History

/-!
# C57: a second server started on the same state directory
-/

namespace Ruroco

open Spec (forwards message onDisk)

theorem act_bind_assoc (m : Act α) (f : α → Act β) (g : β → Act γ) : ((m >>= f) >>= g) = (m >>= fun a => f a >>= g) := by
  funext w
  show Act.bind (Act.bind m f) g w = Act.bind m (fun a => Act.bind (f a) g) w
  unfold Act.bind
  rcases m w with ⟨o, w'⟩
  cases o <;> rfl

theorem act_pure_bind (a : α) (f : α → Act β) : ((pure a : Act α) >>= f) = f a := rfl

theorem act_throw_bind (e : Err) (f : α → Act β) : ((Act.throw e : Act α) >>= f) = Act.throw e := rfl

theorem create_eq_load_save (dir : Path) (order : BlMap → BlMap) :
    Blocklist.create dir order = (do let b ← Blocklist.load dir order; b.save; pure b) := by
  unfold Blocklist.create Blocklist.load
  simp only
  rw [act_bind_assoc]
  congr 1
  funext b
  cases b with
  | false => rfl
  | true =>
    simp only [if_true]
    rw [act_bind_assoc]
    congr 1
    funext bytes
    cases decodeBl bytes with
    | none => rfl
    | some m => rfl

/-- The two halves, run one after the other, are the start of the server. -/
theorem create_eq_read_write (cfg : ServerCfg) (env : StartEnv) :
    Server.create cfg env = (do let (hs, bl) ← Server.createRead cfg env; Server.createWrite cfg env hs bl) := by
  unfold Server.create Server.createRead Server.createWrite
  rw [create_eq_load_save]
  simp only [act_bind_assoc, act_pure_bind]

def outD : Out α → α → α
  | .ok a, _ => a
  | _, d => d

def Out.isOk : Out α → Bool
  | .ok _ => true
  | _ => false

theorem eq_ok_of_isOk {x : Out α × World} (d : α) (h : x.1.isOk = true) : x = (.ok (outD x.1 d), x.2) := by
  obtain ⟨a, b⟩ := x
  cases a <;> simp [Out.isOk] at h
  rfl

/-! The interleaving of `C57_second_start_lowers_counter`, step by step. -/

def twoEnv : Env := ⟨[], [some 1050, some 1050, some 1050]⟩
def twoCfg : ServerCfg := { exServer.cfg with maxPerIp := 10 }
def twoStart : StartEnv := ⟨exDir, id, false, 0⟩
/-- server A runs -/
def two0 : Sys := [exStart 1000 []].foldl (exec toyAead) ⟨exEmpty, none⟩
/-- server B has read the file -/
def twoRead : Out (Handlers × Blocklist) × World := Server.createRead twoCfg twoStart (two0.w.withEnv twoEnv [])
def twoB : Handlers × Blocklist := outD twoRead.1 ([], ⟨[], [], id⟩)
/-- server A forwards a command -/
def two3 : Sys := [exPacket 5000 1100 []].foldl (exec toyAead) ⟨twoRead.2, two0.srv⟩
/-- server B writes and fails to bind -/
def twoWrite : Out Server × World := Server.createWrite twoCfg twoStart twoB.1 twoB.2 (two3.w.withEnv twoEnv [])
/-- server A is restarted and receives the same datagram -/
def two4 : Sys := [exStart 2000 [], exPacket 5000 2100 []].foldl (exec toyAead) ⟨twoWrite.2, none⟩

theorem two_isErr : twoWrite.1.isErr = true := by decide +kernel
theorem two_read_ok : twoRead.1.isOk = true := by decide +kernel
theorem two0_forwards : forwards two0.w.log = [] := by decide +kernel
theorem two3_enabled : Enabled toyAead "/s".toList ⟨twoRead.2, two0.srv⟩ (exPacket 5000 1100 []) := by
  have h : (match two0.srv with
    | some srv => (srv.handleDatagram toyAead (exSealed 5000) (.v4 0x0a000001) exReadings 0
        (twoRead.2.withEnv ⟨[], [some 1100, some 1100]⟩ ((exSealed 5000).take MSG_SIZE))).1.isErr == false
    | none => false) = true := by decide +kernel
  unfold Enabled exPacket
  split at h
  · rename_i srv hs
    simp only [hs]
    exact beq_iff_eq.1 h
  · cases h
theorem two3_forwards : forwards two3.w.log = [(exSealed 5000, 5000, message exRequest (.v4 0x0a000001))] := by decide +kernel
theorem two3_disk : onDisk two3.w (blocklistPath "/s".toList) ((exSealed 5000).take 8) = some 5000 := by decide +kernel
theorem twoWrite_disk : onDisk twoWrite.2 (blocklistPath "/s".toList) ((exSealed 5000).take 8) = some 1000 := by decide +kernel
def two4a : Sys := exec toyAead ⟨twoWrite.2, none⟩ (exStart 2000 [])
theorem two4_enabled : Enabled toyAead "/s".toList two4a (exPacket 5000 2100 []) := by
  have h : (match two4a.srv with
    | some srv => (srv.handleDatagram toyAead (exSealed 5000) (.v4 0x0a000001) exReadings 0
        (two4a.w.withEnv ⟨[], [some 2100, some 2100]⟩ ((exSealed 5000).take MSG_SIZE))).1.isErr == false
    | none => false) = true := by decide +kernel
  unfold Enabled exPacket
  split at h
  · rename_i srv hs
    simp only [hs]
    exact beq_iff_eq.1 h
  · cases h
theorem two4_forwards : forwards two4.w.log = [(exSealed 5000, 5000, message exRequest (.v4 0x0a000001)),
    (exSealed 5000, 5000, message exRequest (.v4 0x0a000001))] := by decide +kernel

/-- **C57 is false**: a server is running; a second one is started and reads the replay state; the running one forwards a command with counter
5000; the second one writes back what it had read and then fails to bind the port. The stored counter of the key went down from 5000 to
1000, and after a restart the same datagram is acted on a second time. No call fails except the bind. -/
theorem C57_second_start_lowers_counter :
    ∃ (s0 s3 s4 : Sys) (srvB : Handlers × Blocklist) (w1 w2 : World) (env cur : _) (cfg : ServerCfg) (senv : StartEnv) (e : Err) (dg bs bs' : List Byte),
      -- a running server, one command not yet sent
      Run toyAead "/s".toList ⟨exEmpty, none⟩ [exStart 1000 []] s0 ∧ forwards s0.w.log = [] ∧ cfg.blDir = "/s".toList ∧ env.oracle = [] ∧
      -- the second process reads
      Server.createRead cfg senv (s0.w.withEnv env cur) = (.ok srvB, w1) ∧
      -- the running server handles a datagram
      Run toyAead "/s".toList ⟨w1, s0.srv⟩ [exPacket 5000 1100 []] s3 ∧ forwards s3.w.log = [(dg, 5000, bs)] ∧
      onDisk s3.w (blocklistPath "/s".toList) (dg.take 8) = some 5000 ∧
      -- the second process writes and gives up
      Server.createWrite cfg senv srvB.1 srvB.2 (s3.w.withEnv env cur) = (.err e, w2) ∧
      onDisk w2 (blocklistPath "/s".toList) (dg.take 8) = some 1000 ∧
      -- restart and replay
      Run toyAead "/s".toList ⟨w2, s3.srv⟩ [.kill, exStart 2000 [], exPacket 5000 2100 []] s4 ∧
      forwards s4.w.log = [(dg, 5000, bs), (dg, 5000, bs')] := by
  have herr : ∃ e, twoWrite = (.err e, twoWrite.2) := by
    have := two_isErr
    generalize twoWrite = x at this
    obtain ⟨o, w⟩ := x
    cases o with
    | ok _ => exact absurd this (by simp [Out.isErr])
    | err e => exact ⟨e, rfl⟩
    | crash => exact absurd this (by simp [Out.isErr])
  obtain ⟨e, he⟩ := herr
  exact ⟨two0, two3, two4, twoB, twoRead.2, twoWrite.2, twoEnv, [], twoCfg, twoStart, e, exSealed 5000, message exRequest (.v4 0x0a000001),
    message exRequest (.v4 0x0a000001), run_exec [exStart 1000 []] _ ⟨⟨rfl, rfl⟩, trivial⟩, two0_forwards, rfl, rfl, eq_ok_of_isOk _ two_read_ok,
    run_exec [exPacket 5000 1100 []] _ ⟨two3_enabled, trivial⟩, two3_forwards, two3_disk, he, twoWrite_disk,
    Run.cons (.kill twoWrite.2 two3.srv) (run_exec [exStart 2000 [], exPacket 5000 2100 []] _ ⟨⟨rfl, rfl⟩, two4_enabled, trivial⟩), two4_forwards⟩

/-- **C57 (partial).** If the running server handles no datagram between the read and the last write of the second start, the second start
changes no stored counter, whatever its outcome. Missing: the interleaved case, for which the property is false (above). -/
theorem C57_uninterleaved_start_partial (cfg : ServerCfg) (senv : StartEnv) (hord : ∀ m, (senv.order m).Perm m) (w w1 w2 : World)
    (o : Out Server) (srvB : Handlers × Blocklist) (h1 : Server.createRead cfg senv w = (.ok srvB, w1))
    (h2 : Server.createWrite cfg senv srvB.1 srvB.2 w1 = (o, w2)) (hstat : .statFailed (blocklistPath cfg.blDir) ∉ w2.log)
    (k : List Byte) (v : U128) (hv : onDisk w (blocklistPath cfg.blDir) k = some v) :
    onDisk w2 (blocklistPath cfg.blDir) k = some v := by
  have h : Server.create cfg senv w = (o, w2) := by
    rw [create_eq_read_write]
    show Act.bind _ _ w = _
    unfold Act.bind
    rw [h1]
    exact h2
  exact (C16_start_preserves_counters_partial cfg senv hord w w2 o h hstat).1 k v hv

end Ruroco
