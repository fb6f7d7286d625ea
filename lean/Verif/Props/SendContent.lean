import Verif.Props.EndToEnd
import Verif.Lemmas.UiExec
import Verif.Spec.Terms.SendContent

/-! # C63: a datagram says what the user asked for -/

namespace Ruroco

open Spec (Seals IsPacket datagrams)

theorem wp_true (m : Act α) (w : World) : wp m w (fun _ _ => True) := trivial

/-- `e` is no datagram, or one satisfying `X`. -/
def UdpOnly (X : Ip → Nat → U128 → List Byte → Prop) (e : Event) : Prop := ∀ ip port c bytes, e = .udp ip port c bytes → X ip port c bytes

theorem logs_writeAtomic_udp (X : Ip → Nat → U128 → List Byte → Prop) (p : Path) (b : List Byte) : Always (Logs (UdpOnly X)) (writeAtomic p b) := by
  intro w
  have h : wp (writeAtomic p b) w _ := writeAtomicWithMode_spec p b none w
  obtain ⟨l, h1, h2⟩ := h.log
  refine ⟨l, h1, fun e he => ?_⟩
  rintro ip port c bytes rfl
  exact absurd (h2 _ he) (by simp)

theorem logs_counterRead (X : Ip → Nat → U128 → List Byte → Prop) (p : Path) : Always (Logs (UdpOnly X)) (Counter.read p) := by
  unfold Counter.read
  refine Always.bind (logs_pre _) (logs_readFile (fun _ _ _ _ h => nomatch h)) (fun d => ?_)
  split
  · exact Always.throw (logs_pre _) _
  · exact Always.pure (logs_pre _) _

theorem logs_createAndInit (X : Ip → Nat → U128 → List Byte → Prop) (p : Path) (v : U128) : Always (Logs (UdpOnly X)) (Counter.createAndInit p v) := by
  unfold Counter.createAndInit
  refine Always.bind (logs_pre _) (Always.attempt (logs_counterRead X p)) (fun r => ?_)
  split
  · exact Always.pure (logs_pre _) _
  · exact Always.bind (logs_pre _) (logs_writeAtomic_udp X _ _) (fun _ => Always.pure (logs_pre _) _)
  · exact Always.throw (logs_pre _) _

theorem logs_counterInc (X : Ip → Nat → U128 → List Byte → Prop) (c : Counter) : Always (Logs (UdpOnly X)) c.inc := by
  unfold Counter.inc
  split
  · exact Always.bind (logs_pre _) (Always.attempt (logs_writeAtomic_udp X _ _)) (fun _ => Always.pure (logs_pre _) _)
  · exact Always.pure (logs_pre _) _

theorem logs_clientLock (X : Ip → Nat → U128 → List Byte → Prop) (p : Path) (held : Bool) : Always (Logs (UdpOnly X)) (acquireLock p held) := by
  unfold acquireLock openCreate
  refine Always.bind (logs_pre _) (logs_call (fun _ _ _ _ h => nomatch h) (fun w => by split <;> rfl)) (fun _ => ?_)
  refine Always.bind (logs_pre _) (logs_call (fun _ _ _ _ h => nomatch h) (fun w => rfl)) (fun _ => ?_)
  split
  · exact Always.throw (logs_pre _) _
  · exact Always.pure (logs_pre _) _

/-- What a sender with this key and these settings may send. -/
def Asked (A : Aead) (hash : List Char → U64) (h : CryptoHandler) (cmd : SendCmd) (src : Option Ip) (rnd : Nat → Option (List Byte)) (dsts : List SockAddr) (ip : Ip) (port : Nat) (c : U128)
    (bytes : List Byte) : Prop :=
  ⟨ip, port⟩ ∈ dsts ∧ ∃ i iv, rnd i = some iv ∧ encode A h (some iv) (ClientData.serialize { cmdHash := hash cmd.command, counter := c, strict := !cmd.permissive, srcIp := src, dstIp := ip }) = .ok bytes

theorem logs_sendData (A : Aead) (hash : List Char → U64) (s : Sender) (rnd : Nat → Option (List Byte)) (dsts : List SockAddr) (a : SockAddr) (ha : a ∈ dsts) (i : Nat) :
    Always (Logs (UdpOnly (Asked A hash s.handler s.cmd s.srcIp rnd dsts))) (s.sendData A hash a (rnd i)) := by
  unfold Sender.sendData
  refine Always.bind (logs_pre _) (logs_note (fun _ _ _ _ h => nomatch h)) (fun _ => ?_)
  refine Always.bind (logs_pre _) (logs_counterInc _ _) ?_
  rintro ⟨counter, r⟩
  cases r with
  | error e => exact Always.pure (logs_pre _) _
  | ok u =>
    simp only
    split
    · exact Always.pure (logs_pre _) _
    · rename_i bytes henc
      refine Always.bind (logs_pre _) (Always.attempt ?_) (fun _ => Always.pure (logs_pre _) _)
      unfold sendUdp
      refine Always.bind (logs_pre _) (logs_call (fun _ _ _ _ h => nomatch h) (fun w => rfl)) (fun _ => ?_)
      refine Always.bind (logs_pre _) (logs_call (fun _ _ _ _ h => nomatch h) (fun w => rfl)) (fun _ => ?_)
      refine logs_call ?_ (fun w => rfl)
      intro ip port c b he
      cases he
      refine ⟨ha, ?_⟩
      cases hr : rnd i with
      | none => rw [hr] at henc; cases henc
      | some iv => rw [hr] at henc; exact ⟨i, iv, hr, henc⟩

/-- Sending changes only the counter of the sender. -/
theorem sendData_frame (A : Aead) (hash : List Char → U64) (s : Sender) (a : SockAddr) (rnd : Option (List Byte)) (w : World) :
    wp (s.sendData A hash a rnd) w (fun o _ => ∀ s' r, o = .ok (s', r) → s'.handler = s.handler ∧ s'.cmd = s.cmd ∧ s'.srcIp = s.srcIp) := by
  refine wp_mono (sendData_spec A hash s a rnd w) ?_
  intro o w' h s' r ho
  subst ho
  rcases (attempt_trace h).1 with rfl | rfl
  · exact ⟨rfl, rfl, rfl⟩
  · exact ⟨rfl, rfl, rfl⟩

theorem logs_sendLoop (A : Aead) (hash : List Char → U64) (rnd : Nat → Option (List Byte)) (dsts : List SockAddr) (s : Sender) (i : Nat) (l : List SockAddr) (hl : ∀ a ∈ l, a ∈ dsts) (w : World) :
    wp (s.sendLoop A hash rnd i l) w (fun _ w' => Logs (UdpOnly (Asked A hash s.handler s.cmd s.srcIp rnd dsts)) w w') := by
  induction l generalizing s i w with
  | nil => exact (logs_pre _).refl w
  | cons a rest ih =>
    unfold Sender.sendLoop
    rw [wp_bind]
    have hpause : wp (s.pause i) w (fun _ w' => Logs (UdpOnly (Asked A hash s.handler s.cmd s.srcIp rnd dsts)) w w') := by
      unfold Sender.pause
      split
      · exact logs_note (fun _ _ _ _ h => nomatch h) w
      · exact (logs_pre _).refl w
    refine wp_mono hpause ?_
    intro o w1 h1
    cases o with
    | err e => exact h1
    | crash => exact h1
    | ok u =>
      simp only
      rw [wp_bind]
      have h2 : wp (s.sendData A hash a (rnd i)) w1 (fun _ w' => Logs (UdpOnly (Asked A hash s.handler s.cmd s.srcIp rnd dsts)) w1 w') :=
        logs_sendData A hash s rnd dsts a (hl a (List.mem_cons_self ..)) i w1
      refine wp_mono (wp_and h2 (sendData_frame A hash s a (rnd i) w1)) ?_
      rintro o w2 ⟨h2, hf⟩
      have h12 := (logs_pre _).trans h1 h2
      cases o with
      | err e => exact h12
      | crash => exact h12
      | ok x =>
        obtain ⟨s1, r⟩ := x
        obtain ⟨e1, e2, e3⟩ := hf s1 r rfl
        have hrest := fun w => ih s1 (i + 1) (fun b hb => hl b (List.mem_cons_of_mem _ hb)) w
        rw [e1, e2, e3] at hrest
        simp only
        cases r with
        | ok u => exact wp_mono (hrest w2) (fun o w3 h3 => (logs_pre _).trans h12 h3)
        | error e =>
          simp only
          rw [wp_bind, wp_note]
          simp only
          rw [wp_bind]
          have h3 : Logs (UdpOnly (Asked A hash s.handler s.cmd s.srcIp rnd dsts)) w2 { w2 with log := w2.log ++ [.sendFailed a.ip a.port] } :=
            logs_note (fun _ _ _ _ h => nomatch h) w2
          refine wp_mono (hrest _) ?_
          intro o w4 h4
          have := (logs_pre _).trans ((logs_pre _).trans h12 h3) h4
          cases o <;> exact this

/-- How the `--ip` option is to be read: absent, or the text of an address. -/
def IpOptionMeans (opt : Option (List Char)) (src : Option Ip) : Prop := (opt = none ∧ src = none) ∨ ∃ t a, opt = some t ∧ parseIp t = some a ∧ src = some a

theorem ipOptionMeans_of {opt : Option (List Char)} {src : Option Ip} (h : parseIpOption opt = .ok src) : IpOptionMeans opt src := by
  unfold parseIpOption at h
  cases opt with
  | none => cases h; exact Or.inl ⟨rfl, rfl⟩
  | some t =>
    simp only at h
    cases hp : parseIp t with
    | none => rw [hp] at h; cases h
    | some a =>
      rw [hp] at h
      cases h
      exact Or.inr ⟨t, a, rfl, hp, rfl⟩

/-- The settings of a created sender. -/
theorem create_frame (dir : Path) (cmd : SendCmd) (env : SendEnv) (w : World) : wp (Sender.create dir cmd env) w (fun o _ => ∀ s, o = .ok s → ∃ key address,
    ensurePort cmd.address DEFAULT_PORT = .ok address ∧ s.cmd = { cmd with address } ∧ parseIpOption cmd.ip = .ok s.srcIp ∧ env.keyText = some key ∧ CryptoHandler.create (trim key) = .ok s.handler) := by
  unfold Sender.create
  rw [wp_bind]
  cases h1 : ensurePort cmd.address DEFAULT_PORT with
  | error e => intro s hs; cases hs
  | ok address =>
    rw [wp_ofExcept]
    simp only
    rw [wp_bind]
    cases h2 : parseIpOption cmd.ip with
    | error e => intro s hs; cases hs
    | ok srcIp =>
      rw [wp_ofExcept]
      simp only
      cases h3 : env.keyText with
      | none => intro s hs; cases hs
      | some key =>
        simp only
        rw [wp_bind]
        cases h4 : CryptoHandler.create (trim key) with
        | error e => intro s hs; cases hs
        | ok handler =>
          rw [wp_ofExcept]
          simp only
          rw [wp_bind]
          refine wp_nowNanos _ _ ?_ (fun c => by intro s hs; cases hs)
          intro t c _
          simp only
          rw [wp_bind]
          refine wp_mono (wp_true _ _) ?_
          intro o w1 _
          cases o with
          | ok c =>
            intro s hs
            cases hs
            exact ⟨key, address, rfl, rfl, rfl, rfl, h4⟩
          | err e => intro s hs; cases hs
          | crash => intro s hs; cases hs

theorem create_logs (X : Ip → Nat → U128 → List Byte → Prop) (dir : Path) (cmd : SendCmd) (env : SendEnv) : Always (Logs (UdpOnly X)) (Sender.create dir cmd env) := by
  unfold Sender.create
  refine Always.bind (logs_pre _) (Always.ofExcept (logs_pre _) _) (fun _ => ?_)
  refine Always.bind (logs_pre _) (Always.ofExcept (logs_pre _) _) (fun _ => ?_)
  split
  · exact Always.throw (logs_pre _) _
  · refine Always.bind (logs_pre _) (Always.ofExcept (logs_pre _) _) (fun _ => ?_)
    refine Always.bind (logs_pre _) logs_nowNanos (fun _ => ?_)
    exact Always.bind (logs_pre _) (logs_createAndInit _ _ _) (fun _ => Always.pure (logs_pre _) _)

/-- What a `send` with these settings may put on the wire. -/
def SendAsked (A : Aead) (hash : List Char → U64) (held : Bool) (cmd : SendCmd) (env : SendEnv) (ip : Ip) (port : Nat) (c : U128) (bytes : List Byte) : Prop :=
  held = false ∧ ∃ key h src address dsts, env.keyText = some key ∧ CryptoHandler.create (trim key) = .ok h ∧ parseIpOption cmd.ip = .ok src ∧
    ensurePort cmd.address DEFAULT_PORT = .ok address ∧ getDestinationIps cmd.ipv4 cmd.ipv6 (env.resolve address) = .ok dsts ∧ Asked A hash h cmd src env.rnd dsts ip port c bytes

theorem clientLock_held (p : Path) (held : Bool) (w : World) : wp (acquireLock p held) w (fun o _ => o = .ok () → held = false) := by
  unfold acquireLock
  rw [wp_bind]
  refine wp_mono (wp_true _ _) ?_
  intro o w1 _
  cases o with
  | err e => exact nofun
  | crash => exact nofun
  | ok u =>
    simp only
    rw [wp_bind]
    refine wp_mono (wp_true _ _) ?_
    intro o w1 _
    cases o with
    | err e => exact nofun
    | crash => exact nofun
    | ok u =>
      simp only
      cases held with
      | true => exact nofun
      | false => exact fun _ => rfl

theorem clientLock_only (p : Path) (held : Bool) : Always (Touch (· = p)) (acquireLock p held) := by
  have htp : ∀ (ev : Event) (w : World) (o : List Choice), Touch (· = p) w { w with log := w.log ++ [ev], oracle := o } := fun ev w o => ⟨fun _ _ => rfl, List.prefix_append _ _⟩
  unfold acquireLock openCreate
  refine Always.bind (touch_pre _) (Always.atomicCall (htp _) ?_) (fun _ => Always.bind (touch_pre _) (Always.atomicCall (htp _) (htp _)) (fun _ => ?_))
  · intro w o
    split
    · exact htp _ w o
    · refine ⟨fun q hq => ?_, List.prefix_append _ _⟩
      show (if q = p then _ else w.fs q) = _
      rw [if_neg hq]
  · split
    · exact Always.throw (touch_pre _) _
    · exact Always.pure (touch_pre _) _

theorem createSend_asked (A : Aead) (hash : List Char → U64) (dir : Path) (cmd : SendCmd) (env : SendEnv) (w : World) :
    wp (do let s ← Sender.create dir cmd env; s.send A hash env) w (fun _ w' => Logs (UdpOnly (SendAsked A hash false cmd env)) w w') := by
  rw [wp_bind]
  have h2 : wp (Sender.create dir cmd env) w (fun _ w' => Logs (UdpOnly (SendAsked A hash false cmd env)) w w') := create_logs _ dir cmd env w
  refine wp_mono (wp_and h2 (create_frame dir cmd env w)) ?_
  rintro o w2 ⟨h2, hf⟩
  cases o with
  | err e => exact h2
  | crash => exact h2
  | ok s =>
    obtain ⟨key, address, ha, hcmd, hsrc, hk, hh⟩ := hf s rfl
    simp only
    unfold Sender.send
    rw [wp_bind]
    have ea : s.cmd.address = address := by rw [hcmd]
    have e4 : s.cmd.ipv4 = cmd.ipv4 := by rw [hcmd]
    have e6 : s.cmd.ipv6 = cmd.ipv6 := by rw [hcmd]
    rw [ea, e4, e6, wp_ofExcept]
    cases hd : getDestinationIps cmd.ipv4 cmd.ipv6 (env.resolve address) with
    | error e => exact h2
    | ok dsts =>
      simp only
      unfold Sender.sendToDestinations
      rw [wp_bind]
      refine wp_mono (logs_sendLoop A hash env.rnd dsts s 0 dsts (fun a ha => ha) w2) ?_
      intro o w3 h3
      have h3' : Logs (UdpOnly (SendAsked A hash false cmd env)) w2 w3 := by
        obtain ⟨l, hl, hp⟩ := h3
        refine ⟨l, hl, fun e he ip port c bytes hev => ?_⟩
        have hq := hp e he ip port c bytes hev
        refine ⟨rfl, key, s.handler, s.srcIp, address, dsts, hk, hh, hsrc, ha, hd, ?_⟩
        unfold Asked at hq ⊢
        rw [hcmd] at hq
        exact hq
      have h123 := (logs_pre _).trans h2 h3'
      cases o with
      | err e => exact h123
      | crash => exact h123
      | ok x =>
        simp only
        split <;> exact h123

theorem runSend_asked (A : Aead) (hash : List Char → U64) (dir : Path) (held : Bool) (cmd : SendCmd) (env : SendEnv) (w : World) :
    wp (runSend A hash dir held cmd env) w (fun _ w' => Logs (UdpOnly (SendAsked A hash held cmd env)) w w') := by
  unfold runSend
  rw [wp_bind]
  have h1 : wp (acquireLock (dir ++ "/client.lock".toList) held) w (fun _ w' => Logs (UdpOnly (SendAsked A hash held cmd env)) w w') := logs_clientLock _ _ _ w
  have hheld := clientLock_held (dir ++ "/client.lock".toList) held w
  refine wp_mono (wp_and h1 hheld) ?_
  rintro o w1 ⟨h1, hh⟩
  cases o with
  | err e => exact h1
  | crash => exact h1
  | ok u =>
    cases hh rfl
    exact wp_mono (createSend_asked A hash dir cmd env w1) (fun o w2 h2 => (logs_pre _).trans h1 h2)

/-- **C63.** Whatever happens during a `send` (failures, crashes), every datagram it sends goes to an address the host name resolved to and opens, under the key in the key file, to the
command asked for, strict unless `--permissive` was given, for the destination it is sent to, and claiming exactly the address given with `--ip`, or none. (`::` can not be claimed: it
stands for "none".) `hrnd`: random bytes come in the number asked for. -/
theorem C63_datagram_says_what_was_asked (A : Aead) (hA : A.Correct) (hash : List Char → U64) (dir : Path) (held : Bool) (cmd : SendCmd) (env : SendEnv) (w w' : World) (o : Out Unit)
    (hrnd : ∀ i iv, env.rnd i = some iv → iv.length = 12) (hrun : runSend A hash dir held cmd env w = (o, w')) (ip : Ip) (port : Nat) (c : U128) (bytes : List Byte)
    (hsent : .udp ip port c bytes ∈ w'.log.drop w.log.length) :
    ∃ key h address all d, env.keyText = some key ∧ CryptoHandler.create (trim key) = .ok h ∧ ensurePort cmd.address 80 = .ok address ∧ env.resolve address = some all ∧ ⟨ip, port⟩ ∈ all ∧
      bytes.length = 94 ∧ bytes.take 8 = h.id ∧ Seals A h.key bytes d ∧ d.cmdHash = hash cmd.command ∧ d.counter = c ∧ d.strict = !cmd.permissive ∧ d.dstIp = normalizeIp ip ∧
      (cmd.ip = none → d.srcIp = none) ∧ (∀ t, cmd.ip = some t → ∃ a, parseIp t = some a ∧ (a ≠ .v6 0 → d.srcIp = some (normalizeIp a))) := by
  have h := runSend_asked A hash dir held cmd env w
  unfold wp at h
  rw [hrun] at h
  obtain ⟨_, key, hd, src, address, dsts, h1, h2, h3, h4, h5, h6, i, iv, h7, h8⟩ := h.drop _ hsent ip port c bytes rfl
  obtain ⟨all, h9, _, _, h10, _⟩ := C35_bounds _ _ _ _ h5
  obtain ⟨_, hid, hk⟩ := (create_ok_iff _ _).1 h2
  obtain ⟨p1, p2, p3⟩ := packet_seals hA hid hk (hrnd i iv h7) h8
  refine ⟨key, hd, address, all, _, h1, h2, h4, h9, h10 _ h6, p1, p2, p3, rfl, rfl, rfl, rfl, ?_, ?_⟩
  · intro hn
    rw [hn] at h3
    cases h3
    rfl
  · intro t ht
    rcases ipOptionMeans_of h3 with ⟨hn, _⟩ | ⟨t', a, ht', ha, rfl⟩
    · rw [ht] at hn; cases hn
    · rw [ht] at ht'
      cases ht'
      refine ⟨a, ha, fun hne => ?_⟩
      show readSrc (some a) = _
      unfold readSrc
      simp only
      rw [if_neg hne]

/-- **C63**, unusable settings: the `send` fails, nothing is sent, and no file but the lock file is touched; in particular no counter is created or used up. -/
theorem C63_unusable_refused (A : Aead) (hash : List Char → U64) (dir : Path) (held : Bool) (cmd : SendCmd) (env : SendEnv) (w w' : World) (o : Out Unit)
    (hrun : runSend A hash dir held cmd env w = (o, w')) (hbad : Unusable held cmd env) :
    o ≠ .ok () ∧ (∀ ip port c bytes, .udp ip port c bytes ∉ w'.log.drop w.log.length) ∧ ∀ q, q ≠ dir ++ "/client.lock".toList → w'.fs q = w.fs q := by
  have hlock : wp (acquireLock (dir ++ "/client.lock".toList) held) w (fun o w' => Logs (UdpOnly fun _ _ _ _ => False) w w' ∧ (o = .ok () → held = false) ∧
      ∀ q, q ≠ dir ++ "/client.lock".toList → w'.fs q = w.fs q) := by
    refine wp_and (logs_clientLock _ _ _ w : wp (acquireLock _ held) w (fun _ w' => Logs (UdpOnly fun _ _ _ _ => False) w w')) (wp_and (clientLock_held _ held w) ?_)
    have ht : wp (acquireLock (dir ++ "/client.lock".toList) held) w (fun _ w' => Touch (· = dir ++ "/client.lock".toList) w w') := clientLock_only _ held w
    exact wp_mono ht (fun o w' h q hq => h.fs q hq)
  have hcreate : held = false → ∀ w1, ∃ e, Sender.create dir cmd env w1 = (.err e, w1) := by
    intro hh w1
    unfold Sender.create
    rcases hbad with hb | hb | hb | hb
    · rw [hh] at hb; cases hb
    · cases h1 : ensurePort cmd.address DEFAULT_PORT with
      | ok a => exact absurd h1 (hb a)
      | error e => exact ⟨e, rfl⟩
    · cases h1 : ensurePort cmd.address DEFAULT_PORT with
      | error e => exact ⟨e, rfl⟩
      | ok a =>
        obtain ⟨t, ht, hp⟩ := hb
        have : parseIpOption cmd.ip = .error .config := by unfold parseIpOption; rw [ht]; simp only; rw [hp]
        rw [this]
        exact ⟨_, rfl⟩
    · cases h1 : ensurePort cmd.address DEFAULT_PORT with
      | error e => exact ⟨e, rfl⟩
      | ok a =>
        cases h2 : parseIpOption cmd.ip with
        | error e => exact ⟨e, rfl⟩
        | ok src =>
          cases h3 : env.keyText with
          | none => exact ⟨_, rfl⟩
          | some key =>
            cases h4 : CryptoHandler.create (trim key) with
            | ok h => exact absurd h4 (hb key h h3)
            | error e => exact ⟨e, by simp only [bind, Act.bind, Act.ofExcept, Act.pure, Act.throw, h4]⟩
  have hw : wp (runSend A hash dir held cmd env) w (fun o w' => o ≠ .ok () ∧ Logs (UdpOnly fun _ _ _ _ => False) w w' ∧ ∀ q, q ≠ dir ++ "/client.lock".toList → w'.fs q = w.fs q) := by
    unfold runSend
    rw [wp_bind]
    refine wp_mono hlock ?_
    rintro o w1 ⟨h1, h2, h3⟩
    cases o with
    | err e => exact ⟨nofun, h1, h3⟩
    | crash => exact ⟨nofun, h1, h3⟩
    | ok u =>
      obtain ⟨e, he⟩ := hcreate (h2 rfl) w1
      simp only
      rw [wp_bind]
      unfold wp
      rw [he]
      exact ⟨nofun, h1, h3⟩
  unfold wp at hw
  rw [hrun] at hw
  exact ⟨hw.1, fun ip port c bytes hm => hw.2.1.drop _ hm ip port c bytes rfl, hw.2.2⟩

/-- A send with `--ip 8.8.8.8` to a host with two addresses. -/
example : (datagrams (runSend toyAead exHash "/c".toList false exOpen (exClientEnv exClientKey) (exDisk (some (beBytes 16 5000)) [])).2.log).map (fun x => (x.1, x.2.1, x.2.2.1)) =
    [(.v4 0x0a000002, 80, 5001), (.v6 1, 80, 5002)] ∧ ∀ i iv, (exClientEnv exClientKey).rnd i = some iv → iv.length = 12 := by
  refine ⟨by decide +kernel, fun i iv h => ?_⟩
  cases h
  rfl

example : Unusable false { exOpen with ip := some "8.8.8".toList } (exClientEnv exClientKey) ∧ Unusable false exOpen (exClientEnv "junk".toList) := by
  refine ⟨Or.inr (Or.inr (Or.inl ⟨_, rfl, by decide +kernel⟩)), Or.inr (Or.inr (Or.inr ?_))⟩
  intro key h hk hc
  cases hk
  have : CryptoHandler.create (trim "junk".toList) = .error .badKey := by decide +kernel
  rw [this] at hc
  cases hc

end Ruroco
