import Verif.Props.EndToEnd
import Verif.Props.History
import Verif.Props.ClientHistory

/-! # C53: how often one send can execute a command -/

namespace Ruroco

open Spec (datagrams forwards spawns firstV4 firstV6)

/-- The trace gained at most `n` datagrams. -/
def Gains (n : Nat) (w w' : World) : Prop := ∃ l, datagrams w'.log = datagrams w.log ++ l ∧ l.length ≤ n

theorem Gains.trans {n m : Nat} {w w1 w' : World} (h : Gains n w w1) (h' : Gains m w1 w') : Gains (n + m) w w' := by
  obtain ⟨l, h1, h2⟩ := h
  obtain ⟨l', h3, h4⟩ := h'
  exact ⟨l ++ l', by rw [h3, h1, List.append_assoc], by simp; omega⟩

theorem Gains.of_eq {n : Nat} {w w' : World} (h : datagrams w'.log = datagrams w.log) : Gains n w w' := ⟨[], by simp [h], by simp⟩

theorem Gains.mono {n m : Nat} {w w' : World} (h : Gains n w w') (hm : n ≤ m) : Gains m w w' := by
  obtain ⟨l, h1, h2⟩ := h
  exact ⟨l, h1, Nat.le_trans h2 hm⟩

theorem datagrams_replicate_socket (n : Nat) : datagrams (List.replicate n .udpSocket) = [] := by
  unfold datagrams
  rw [List.filterMap_eq_nil_iff]
  intro e he
  rw [List.eq_of_mem_replicate he]

theorem attempt_gains {A : Aead} {hash : List Char → U64} {s : Sender} {a : SockAddr} {rnd : Option (List Byte)} {w w' : World}
    {o : Out (Sender × Except Err Unit)} (h : Attempt A hash s a rnd w o w') : Gains 1 w w' := by
  have h0 : ∀ {o w1}, WroteAtomic s.counter.path (beBytes 16 s.bump.counter.count.toNat) none o { w with log := w.log ++ [.sendTo a.ip a.port] } w1 →
      datagrams w1.log = datagrams w.log := by
    intro o w1 hw
    obtain ⟨l, h1, h2⟩ := hw.log
    rw [h1, datagrams_append, datagrams_fileEvents h2]
    simp [datagrams]
  cases h with
  | overflow hroom w' hfs hpend hlog =>
    apply Gains.of_eq
    rw [hlog, datagrams_append]
    simp [datagrams]
  | writeFailed hroom e w' h => exact Gains.of_eq (h0 h)
  | writeCrashed hroom w' h => exact Gains.of_eq (h0 h)
  | encryptFailed hroom e w' henc h => exact Gains.of_eq (h0 h)
  | net hroom bytes w1 w' henc h hfs hpend sent l hl hlog o ho =>
    refine ⟨datagrams l, by rw [hlog, datagrams_append, h0 h], ?_⟩
    obtain ⟨n, rfl⟩ := hl.shape
    rw [datagrams_append, datagrams_replicate_socket]
    split <;> simp [datagrams]

theorem sendLoop_gains (A : Aead) (hash : List Char → U64) (rnd : Nat → Option (List Byte)) (dsts : List SockAddr) (s : Sender) (i : Nat) (w : World) :
    wp (s.sendLoop A hash rnd i dsts) w (fun _ w' => Gains dsts.length w w') := by
  induction dsts generalizing s i w with
  | nil => exact Gains.of_eq rfl
  | cons a rest ih =>
    unfold Sender.sendLoop
    rw [wp_bind]
    have hpause : wp (s.pause i) w (fun o w' => o = .ok () ∧ Gains 0 w w') := by
      unfold Sender.pause
      split
      · exact ⟨rfl, Gains.of_eq (by simp [note, datagrams])⟩
      · exact ⟨rfl, Gains.of_eq rfl⟩
    refine wp_mono hpause ?_
    rintro o w1 ⟨rfl, hg1⟩
    simp only
    rw [wp_bind]
    refine wp_mono (sendData_spec A hash s a (rnd i) w1) ?_
    intro o w2 hat
    have hg2 := hg1.trans (attempt_gains hat)
    have hle : 0 + 1 ≤ rest.length + 1 := by omega
    cases o with
    | crash => exact hg2.mono hle
    | err e => exact hg2.mono hle
    | ok x =>
      obtain ⟨s1, r⟩ := x
      simp only
      cases r with
      | error e =>
        simp only
        rw [wp_bind, wp_note]
        simp only
        rw [wp_bind]
        refine wp_mono (ih s1 (i + 1) _) ?_
        intro o w3 h3
        have hn : Gains 0 w2 { w2 with log := w2.log ++ [.sendFailed a.ip a.port] } := Gains.of_eq (by simp [datagrams])
        have := (hg2.trans hn).trans h3
        cases o <;> exact this.mono (by simp; omega)
      | ok u =>
        simp only
        refine wp_mono (ih s1 (i + 1) w2) ?_
        intro o w3 h3
        exact (hg2.trans h3).mono (by simp; omega)

theorem init_gains {p : Path} {initial : U128} {w w' : World} {o : Out Counter} (h : Init p initial w o w') : Gains 0 w w' := by
  have hro : ∀ {w1}, ReadOnly p w w1 → datagrams w1.log = datagrams w.log := by
    intro w1 hr
    obtain ⟨l, h1, h2⟩ := hr.log
    rw [h1, datagrams_append]
    have : datagrams l = [] := by
      unfold datagrams
      rw [List.filterMap_eq_nil_iff]
      intro e he
      rw [h2 e he]
    rw [this, List.append_nil]
  have hw : ∀ {w1 ow}, ReadOnly p w w1 → WroteAtomic p (beBytes 16 initial.toNat) none ow w1 w' → datagrams w'.log = datagrams w.log := by
    intro w1 ow hr hw
    obtain ⟨l, h1, h2⟩ := hw.log
    rw [h1, datagrams_append, datagrams_fileEvents h2, hro hr, List.append_nil]
  cases h with
  | found c w' hr hd => exact Gains.of_eq (hro hr)
  | seeded w1 w' hr habs h => exact Gains.of_eq (hw hr h)
  | seedFailed e w1 w' hr habs h => exact Gains.of_eq (hw hr h)
  | seedCrashed w1 w' hr habs h => exact Gains.of_eq (hw hr h)
  | refused e w' hr he => exact Gains.of_eq (hro hr)
  | crashed w' hr => exact Gains.of_eq (hro hr)

theorem logs_acquireLock {P : Event → Prop} (p : Path) (held : Bool) (h1 : P (.file .openTrunc p)) (h2 : P (.file .lock p)) :
    Always (Logs P) (acquireLock p held) := by
  unfold acquireLock openCreate
  refine Always.bind (logs_pre P) (logs_call h1 ?_) (fun _ => Always.bind (logs_pre P) (logs_call h2 (fun _ => rfl)) (fun _ => ?_))
  · intro w
    split <;> rfl
  · cases held
    · exact Always.pure (logs_pre P) _
    · exact Always.throw (logs_pre P) _

theorem acquireLock_gains (p : Path) (held : Bool) (w : World) : wp (acquireLock p held) w (fun _ w' => Gains 0 w w') := by
  obtain ⟨l, h1, h2⟩ := logs_acquireLock (P := fun e => ∃ op, e = .file op p) p held ⟨_, rfl⟩ ⟨_, rfl⟩ w
  unfold wp
  apply Gains.of_eq
  rw [h1, datagrams_append]
  have : datagrams l = [] := by
    unfold datagrams
    rw [List.filterMap_eq_nil_iff]
    intro e he
    obtain ⟨op, rfl⟩ := h2 e he
    rfl
  rw [this, List.append_nil]

/-- A send puts at most one datagram per destination on the wire, whatever fails. -/
theorem runSend_gains (A : Aead) (hash : List Char → U64) (dir : Path) (held : Bool) (cmd : SendCmd) (env : SendEnv) (w : World) (n : Nat)
    (hn : ∀ full dsts, getDestinationIps cmd.ipv4 cmd.ipv6 (env.resolve full) = .ok dsts → dsts.length ≤ n) :
    wp (runSend A hash dir held cmd env) w (fun _ w' => Gains n w w') := by
  unfold runSend
  rw [wp_bind]
  refine wp_mono (acquireLock_gains _ held w) ?_
  intro o w1 h1
  cases o with
  | crash => exact h1.mono (Nat.zero_le _)
  | err e => exact h1.mono (Nat.zero_le _)
  | ok u =>
    simp only
    rw [wp_bind]
    have hc : wp (Sender.create dir cmd env) w1 (fun o w' => Gains 0 w1 w' ∧ ∀ s, o = .ok s → s.cmd.ipv4 = cmd.ipv4 ∧ s.cmd.ipv6 = cmd.ipv6) := by
      unfold Sender.create
      rw [wp_bind, wp_ofExcept]
      cases ensurePort cmd.address DEFAULT_PORT with
      | error e => exact ⟨Gains.of_eq rfl, nofun⟩
      | ok address =>
        simp only
        rw [wp_bind, wp_ofExcept]
        cases parseIpOption cmd.ip with
        | error e => exact ⟨Gains.of_eq rfl, nofun⟩
        | ok srcIp =>
          simp only
          cases env.keyText with
          | none => exact ⟨Gains.of_eq rfl, nofun⟩
          | some key =>
            simp only
            rw [wp_bind, wp_ofExcept]
            cases CryptoHandler.create (trim key) with
            | error e => exact ⟨Gains.of_eq rfl, nofun⟩
            | ok handler =>
              simp only
              rw [wp_bind]
              apply wp_nowNanos
              · intro now c hcl
                simp only
                rw [wp_bind]
                refine wp_mono (Counter.createAndInit_spec (counterPath dir) now _) ?_
                intro o w2 hi
                have hg : Gains 0 w1 w2 := Gains.trans (n := 0) (m := 0) (w1 := { w1 with clock := c }) (Gains.of_eq rfl) (init_gains hi)
                cases o with
                | crash => exact ⟨hg, nofun⟩
                | err e => exact ⟨hg, nofun⟩
                | ok ctr =>
                  refine ⟨hg, ?_⟩
                  intro s hs
                  cases hs
                  exact ⟨rfl, rfl⟩
              · intro c
                exact ⟨Gains.of_eq rfl, nofun⟩
    refine wp_mono hc ?_
    rintro o w2 ⟨h2, hs⟩
    have h12 := h1.trans h2
    cases o with
    | crash => exact h12.mono (Nat.zero_le _)
    | err e => exact h12.mono (Nat.zero_le _)
    | ok s =>
      obtain ⟨e4, e6⟩ := hs s rfl
      simp only
      unfold Sender.send
      rw [wp_bind, wp_ofExcept, e4, e6]
      cases hd : getDestinationIps cmd.ipv4 cmd.ipv6 (env.resolve s.cmd.address) with
      | error e => exact h12.mono (Nat.zero_le _)
      | ok dsts =>
        simp only
        unfold Sender.sendToDestinations
        rw [wp_bind]
        refine wp_mono (sendLoop_gains A hash env.rnd dsts s 0 w2) ?_
        intro o w3 h3
        have hle := hn _ _ hd
        have hall : Gains n w w3 := (h12.trans h3).mono (by omega)
        cases o with
        | crash => exact hall
        | err e => exact hall
        | ok x =>
          simp only
          split <;> exact hall

/-- **C53, the part that holds.** A send restricted to one address family (exactly one of `--ipv4`, `--ipv6`), or to a host that resolves to one family
only, puts at most one datagram on the wire, whatever fails; any other send at most two. -/
theorem C53_datagrams_per_send_partial (A : Aead) (hash : List Char → U64) (dir : Path) (held : Bool) (cmd : SendCmd) (env : SendEnv) (w w' : World)
    (o : Out Unit) (h : runSend A hash dir held cmd env w = (o, w')) :
    ∃ sent, datagrams w'.log = datagrams w.log ++ sent ∧ sent.length ≤ 2 ∧
      ((cmd.ipv4 ≠ cmd.ipv6 ∨ ∀ full all, env.resolve full = some all → firstV4 all = none ∨ firstV6 all = none) → sent.length ≤ 1) := by
  have h2 := runSend_gains A hash dir held cmd env w 2 (fun full dsts hd => by obtain ⟨_, _, _, h, _⟩ := C35_bounds _ _ _ _ hd; exact h)
  unfold wp at h2
  rw [h] at h2
  obtain ⟨sent, hs, hlen⟩ := h2
  refine ⟨sent, hs, hlen, ?_⟩
  intro hone
  have h1 := runSend_gains A hash dir held cmd env w 1 (by
    intro full dsts hd
    obtain ⟨all, hall, hne, hle, hmem, htwo, h4, h6⟩ := C35_bounds _ _ _ _ hd
    rcases dsts with _ | ⟨a, _ | ⟨b, _ | ⟨c, rest⟩⟩⟩
    · simp
    · simp
    · exfalso
      obtain ⟨⟨x, hx⟩, y, hy⟩ := htwo a b rfl
      rcases hone with hone | hone
      · cases e4 : cmd.ipv4 <;> cases e6 : cmd.ipv6
        · rw [e4, e6] at hone; exact hone rfl
        · obtain ⟨z, hz⟩ := h6 e6 e4 a (by simp)
          rw [hx] at hz; cases hz
        · obtain ⟨z, hz⟩ := h4 e4 e6 b (by simp)
          rw [hy] at hz; cases hz
        · rw [e4, e6] at hone; exact hone rfl
      · have hv4 : ∀ (l : List SockAddr), a ∈ l → firstV4 l ≠ none := by
          intro l
          induction l with
          | nil => simp
          | cons k rest ih =>
            intro hm
            unfold firstV4
            split
            · nofun
            · rename_i z hz
              rcases List.mem_cons.1 hm with rfl | hm
              · rw [hx] at hz; cases hz
              · exact ih hm
        have hv6 : ∀ (l : List SockAddr), b ∈ l → firstV6 l ≠ none := by
          intro l
          induction l with
          | nil => simp
          | cons k rest ih =>
            intro hm
            unfold firstV6
            split
            · rename_i z hz
              rcases List.mem_cons.1 hm with rfl | hm
              · rw [hy] at hz; cases hz
              · exact ih hm
            · nofun
        rcases hone full all hall with h | h
        · exact hv4 all (hmem a (by simp)) h
        · exact hv6 all (hmem b (by simp)) h
    · simp at hle)
  unfold wp at h1
  rw [h] at h1
  obtain ⟨sent', hs', hlen'⟩ := h1
  rw [hs] at hs'
  rw [List.append_cancel_left hs']
  exact hlen'

theorem nodup_length_le {α : Type _} [DecidableEq α] {l m : List α} (h : l.Nodup) (hsub : ∀ x ∈ l, x ∈ m) : l.length ≤ m.length := by
  induction l generalizing m with
  | nil => simp
  | cons a rest ih =>
    rw [List.nodup_cons] at h
    have hm := hsub a (by simp)
    have : rest.length ≤ (m.erase a).length := ih h.2 (by
      intro x hx
      rw [List.mem_erase_of_ne]
      · exact hsub x (List.mem_cons_of_mem _ hx)
      · rintro rfl
        exact h.1 hx)
    rw [List.length_erase_of_mem hm] at this
    have hp := List.length_pos_of_mem hm
    simp only [List.length_cons]
    omega

/-- **C53, continued.** The datagrams of one send make a server act at most once each: in any history of the server (crashes, restarts, power losses,
replays by the network) at most two messages are handed to the commander for datagrams of that send, at most one if the send is of the first kind. (The commander starts at most one command per message: `C29_failures_only_omit`.) -/
theorem C53_executions_per_send_partial (A : Aead) (hash : List Char → U64) (cdir : Path) (held : Bool) (cmd : SendCmd) (env : SendEnv) (w w' : World)
    (o : Out Unit) (h : runSend A hash cdir held cmd env w = (o, w'))
    (dir : Path) (K : List Byte → Option (List Byte)) (ws : World) (evs : List Ev) (s : Sys) (hrun : Run A dir ⟨ws, none⟩ evs s)
    (hlog : forwards ws.log = []) (hstat : .statFailed (blocklistPath dir) ∉ s.w.log)
    (hsync : .power ∈ evs → .dirSyncFailed (blocklistPath dir) ∉ s.w.log)
    (hK : ∀ env cfg senv, .start env cfg senv ∈ evs → ∀ hs, createCryptoHandlers senv.dir = .ok hs → ∀ id k, hs.get id = some k → K id = some k.key) :
    ∃ sent, datagrams w'.log = datagrams w.log ++ sent ∧
      ((forwards s.w.log).filter (fun f => decide (f.1 ∈ sent.map (fun x => x.2.2.2)))).length ≤ 2 ∧
      ((cmd.ipv4 ≠ cmd.ipv6 ∨ ∀ full all, env.resolve full = some all → firstV4 all = none ∨ firstV6 all = none) →
        ((forwards s.w.log).filter (fun f => decide (f.1 ∈ sent.map (fun x => x.2.2.2)))).length ≤ 1) := by
  obtain ⟨sent, hsent, h2, h1⟩ := C53_datagrams_per_send_partial A hash cdir held cmd env w w' o h
  suffices hle : ((forwards s.w.log).filter (fun f => decide (f.1 ∈ sent.map (fun x => x.2.2.2)))).length ≤ sent.length from
    ⟨sent, hsent, Nat.le_trans hle h2, fun hone => Nat.le_trans hle (h1 hone)⟩
  have hnd := (C38_forwards_genuine_and_distinct A dir K ws evs s hrun hlog hstat hsync hK).2
  rw [← List.length_map (f := fun x : Ip × Nat × U128 × List Byte => x.2.2.2) (as := sent)]
  generalize sent.map (fun x => x.2.2.2) = bytes
  rw [← List.length_map (f := fun x : List Byte × U128 × List Byte => x.1)]
  have hsub : (((forwards s.w.log).filter (fun f => decide (f.1 ∈ bytes))).map (fun x => x.1)).Sublist ((forwards s.w.log).map (fun x => x.1)) :=
    List.Sublist.map _ List.filter_sublist
  have hnd' := hnd.sublist hsub
  apply nodup_length_le hnd'
  intro x hx
  rw [List.mem_map] at hx
  obtain ⟨f, hf, rfl⟩ := hx
  simpa using (List.mem_filter.1 hf).2

/-! ## The full statement is false -/

/-- A server that lists both addresses of its host. -/
def exDualStart : Ev := .start ⟨[], [some 1000, some 1000, some 1000]⟩ { exServer.cfg with maxPerIp := 10, ips := loadIps [.v4 0x0a000002, .v6 1] } ⟨exDir, id, true, 0⟩

/-- The bytes of the two datagrams of the send of `exOpen`. -/
def exBytes4 : List Byte :=
   [1, 2, 3, 4, 5, 6, 7, 8, 0, 0, 0, 0, 0, 0, 0, 0, 0, 0, 0, 0, 9, 9, 9, 9, 9, 9, 9, 9, 0, 0, 0, 0, 0, 0, 0, 0, 1, 0, 0, 0, 0, 0, 0, 0, 4, 0, 0,
    0, 0, 0, 0, 0, 0, 0, 0, 0, 0, 0, 0, 19, 137, 0, 0, 0, 0, 0, 0, 0, 0, 0, 0, 0, 255, 255, 8, 8, 8, 8, 0, 0, 0, 0, 0, 0, 0, 0, 0, 0, 255, 255, 10, 0, 0, 2]

def exBytes6 : List Byte :=
   [1, 2, 3, 4, 5, 6, 7, 8, 1, 1, 1, 1, 1, 1, 1, 1, 1, 1, 1, 1, 9, 9, 9, 9, 9, 9, 9, 9, 1, 1, 1, 1, 1, 1, 1, 1, 1, 0, 0, 0, 0, 0, 0, 0, 4, 0, 0,
    0, 0, 0, 0, 0, 0, 0, 0, 0, 0, 0, 0, 19, 138, 0, 0, 0, 0, 0, 0, 0, 0, 0, 0, 0, 255, 255, 8, 8, 8, 8, 0, 0, 0, 0, 0, 0, 0, 0, 0, 0, 0, 0, 0, 0, 0, 1]

theorem exSent_eq : exSent = [(.v4 0x0a000002, 80, 5001, exBytes4), (.v6 1, 80, 5002, exBytes6)] := by decide +kernel

def exArrival (bytes : List Byte) : Ev := .packet ⟨[], [some 1100, some 1100, some 1100]⟩ bytes (.v4 0x0a000001) exReadings 0

/-- They arrive. -/
def exArrivals : List Ev := [exArrival exBytes4, exArrival exBytes6]

def exDual : List Ev := exDualStart :: exArrivals

/-- All events are packets that can be processed. -/
def packetsOk (A : Aead) (s : Sys) : List Ev → Bool
  | [] => true
  | .packet env dg src rd t :: rest =>
    match s.srv with
    | some srv => !(srv.handleDatagram A dg src rd t (s.w.withEnv env (dg.take MSG_SIZE))).1.isErr && packetsOk A (exec A s (.packet env dg src rd t)) rest
    | none => false
  | _ => false

theorem packetsOk_enabled {A : Aead} {dir : Path} (evs : List Ev) (s : Sys) (h : packetsOk A s evs = true) : AllEnabled A dir s evs := by
  induction evs generalizing s with
  | nil => trivial
  | cons e rest ih =>
    cases e with
    | packet env dg src rd t =>
      obtain ⟨w, srv⟩ := s
      cases srv with
      | none => cases h
      | some srv =>
        simp only [packetsOk, Bool.and_eq_true, Bool.not_eq_true'] at h
        exact ⟨h.1, ih _ h.2⟩
    | _ => cases h

theorem exArrivals_ok : packetsOk toyAead (exec toyAead ⟨exEmpty, none⟩ exDualStart) exArrivals = true := by decide +kernel

theorem exDual_enabled : AllEnabled toyAead "/s".toList ⟨exEmpty, none⟩ exDual := by
  have h : Enabled toyAead "/s".toList ⟨exEmpty, none⟩ exDualStart := by
    unfold Enabled exDualStart
    exact ⟨rfl, rfl⟩
  unfold exDual AllEnabled
  exact ⟨h, packetsOk_enabled _ _ exArrivals_ok⟩

/-- **C53 is false**: one `send` to a host with an IPv4 and an IPv6 address makes two datagrams with two counters; a server that lists both addresses
hands both to the commander, which starts the command twice. -/
theorem C53_dual_stack_executes_twice :
    ∃ (sys : Sys) (sent : List (Ip × Nat × U128 × List Byte)),
      datagrams (runSend toyAead exHash "/c".toList false exOpen (exClientEnv exClientKey) (exDisk (some (beBytes 16 5000)) [])).2.log = sent ∧
      (∀ e ∈ exDual, e = exDualStart ∨ ∃ env x src rd t, x ∈ sent ∧ e = .packet env x.2.2.2 src rd t) ∧
      Run toyAead "/s".toList ⟨exEmpty, none⟩ exDual sys ∧
      spawns (exCommander.serve [] ((forwards sys.w.log).map (fun m => .stream false m.2.2 exEnv)) (exCmdrWorld [])).2.log =
        [("ufw allow".toList, .v4 0x08080808), ("ufw allow".toList, .v4 0x08080808)] := by
  refine ⟨_, [(.v4 0x0a000002, 80, 5001, exBytes4), (.v6 1, 80, 5002, exBytes6)], exSent_eq, ?_, run_exec _ _ exDual_enabled, ?_⟩
  · intro e he
    simp only [exDual, exArrivals, List.mem_cons, List.not_mem_nil, or_false] at he
    rcases he with rfl | rfl | rfl
    · exact Or.inl rfl
    · exact Or.inr ⟨_, (.v4 0x0a000002, 80, 5001, exBytes4), _, _, _, by simp, rfl⟩
    · exact Or.inr ⟨_, (.v6 1, 80, 5002, exBytes6), _, _, _, by simp, rfl⟩
  · decide +kernel

end Ruroco
