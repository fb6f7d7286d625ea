import Verif.Spec.Watch
import Verif.Spec.Secrecy
import Verif.Lemmas.Sys
import Verif.Lemmas.Crypto
import Verif.Lemmas.Protocol
import Verif.Props.SendContent

/-!
# C102: what is asked for can not be seen
-/

namespace Ruroco

open Spec (Visible visible SameWay EvSameWay IpRefused Hides nonceOf Pointwise PowerLoss TwelveEach draws)

/-! ## Runs that look alike -/

/-- The two worlds differ in their traces at most, and those look alike to `V`. -/
def Alike (V : Event → γ) (w1 w2 : World) : Prop := ∃ l, w2 = { w1 with log := l } ∧ w1.log.map V = l.map V

theorem Alike.refl (V : Event → γ) (w : World) : Alike V w w := ⟨w.log, rfl, rfl⟩

/-- From worlds that are alike, the two actions lead to worlds that are alike, with corresponding results. -/
def LookAlike (V : Event → γ) (R : α → β → Prop) (m1 : Act α) (m2 : Act β) : Prop :=
  ∀ w1 w2, Alike V w1 w2 → Alike V (m1 w1).2 (m2 w2).2 ∧
    match (m1 w1).1, (m2 w2).1 with
    | .ok a, .ok b => R a b
    | .err e1, .err e2 => e1 = e2
    | .crash, .crash => True
    | _, _ => False

section
variable {V : Event → γ} {α β δ ε : Type}

theorem look_pure {R : α → β → Prop} {a : α} {b : β} (h : R a b) : LookAlike V R (pure a) (pure b) := fun _ _ hw => ⟨hw, h⟩

theorem look_throw {R : α → β → Prop} (e : Err) : LookAlike V R (Act.throw e) (Act.throw e) := fun _ _ hw => ⟨hw, rfl⟩

theorem look_bind {R : α → β → Prop} {S : δ → ε → Prop} {m1 : Act α} {m2 : Act β} {f1 : α → Act δ} {f2 : β → Act ε} (h : LookAlike V R m1 m2) (hf : ∀ a b, R a b → LookAlike V S (f1 a) (f2 b)) :
    LookAlike V S (m1 >>= f1) (m2 >>= f2) := by
  intro w1 w2 hw
  have h := h w1 w2 hw
  cases h1 : m1 w1 with | mk o1 w1'
  cases h2 : m2 w2 with | mk o2 w2'
  rw [h1, h2] at h
  obtain ⟨h0, h⟩ := h
  simp only [Bind.bind, Act.bind, h1, h2]
  cases o1 <;> cases o2 <;> first | exact h.elim | exact hf _ _ h _ _ h0 | exact ⟨h0, h⟩

theorem look_attempt {R : α → β → Prop} {m1 : Act α} {m2 : Act β} (h : LookAlike V R m1 m2) :
    LookAlike V (fun x y => match x, y with | .ok a, .ok b => R a b | .error e1, .error e2 => e1 = e2 | _, _ => False) m1.attempt m2.attempt := by
  intro w1 w2 hw
  have h := h w1 w2 hw
  cases h1 : m1 w1 with | mk o1 w1'
  cases h2 : m2 w2 with | mk o2 w2'
  rw [h1, h2] at h
  obtain ⟨h0, h⟩ := h
  simp only [Act.attempt, h1, h2]
  cases o1 <;> cases o2 <;> first | exact h.elim | exact ⟨h0, h⟩

/-- An action whose run looks the same from worlds that are alike. -/
def Blind (V : Event → γ) (m : Act α) : Prop := LookAlike V Eq m m

theorem blind_attempt {m : Act α} (h : Blind V m) : Blind V m.attempt := by
  intro w1 w2 hw
  obtain ⟨h0, h1⟩ := look_attempt h w1 w2 hw
  refine ⟨h0, ?_⟩
  generalize (m.attempt w1).1 = o1, (m.attempt w2).1 = o2 at h1
  cases o1 with
  | ok x =>
    cases o2 with
    | ok y => cases x <;> cases y <;> first | exact h1.elim | exact congrArg _ h1
    | err e => exact h1.elim
    | crash => exact h1.elim
  | err e => cases o2 <;> first | exact h1.elim | exact h1
  | crash => cases o2 <;> first | exact h1.elim | trivial

theorem blind_bind {m : Act α} {f : α → Act β} (h : Blind V m) (hf : ∀ a, Blind V (f a)) : Blind V (m >>= f) := look_bind h fun a b hab => by cases hab; exact hf a

theorem blind_pure (a : α) : Blind V (pure a : Act α) := look_pure rfl

theorem blind_throw (e : Err) : Blind V (Act.throw e : Act α) := look_throw e

theorem blind_ofExcept (x : Except Err α) : Blind V (Act.ofExcept x) := by
  cases x with
  | ok a => exact blind_pure a
  | error e => exact blind_throw e

/-- An effect that does not look at the trace and leaves it as it is. -/
def Unseen (eff : World → World) : Prop := ∀ w l, eff { w with log := l } = { eff w with log := l } ∧ (eff w).log = w.log

theorem Alike.eff {w1 w2 : World} {eff : World → World} (h : Unseen eff) (hw : Alike V w1 w2) : Alike V (eff w1) (eff w2) := by
  obtain ⟨l, rfl, hl⟩ := hw
  exact ⟨l, (h w1 l).1, by rw [(h w1 l).2, hl]⟩

theorem Alike.log {w1 w2 : World} {e1 e2 : Event} (he : V e1 = V e2) (hw : Alike V w1 w2) : Alike V { w1 with log := w1.log ++ [e1] } { w2 with log := w2.log ++ [e2] } := by
  obtain ⟨l, rfl, hl⟩ := hw
  exact ⟨l ++ [e2], rfl, by simp [hl, he]⟩

theorem Alike.oracle {w1 w2 : World} (o : List Choice) (hw : Alike V w1 w2) : Alike V { w1 with oracle := o } { w2 with oracle := o } := by
  obtain ⟨l, rfl, hl⟩ := hw
  exact ⟨l, rfl, hl⟩

theorem look_syscall {e1 e2 : Event} (he : V e1 = V e2) {eff : World → World} {onErr onCrash : Nat → World → World} (h : Unseen eff) (h1 : ∀ k, Unseen (onErr k)) (h2 : ∀ k, Unseen (onCrash k)) :
    LookAlike V Eq (syscall e1 eff onErr onCrash) (syscall e2 eff onErr onCrash) := by
  intro w1 w2 hw
  have hl := hw.log he
  obtain ⟨l, rfl, hl'⟩ := hw
  obtain ⟨fs, pend, clock, oracle, umask, cur, log⟩ := w1
  cases oracle with
  | nil => exact ⟨hl.eff h, rfl⟩
  | cons c o =>
    cases c with
    | ok => exact ⟨(hl.oracle o).eff h, rfl⟩
    | err k => exact ⟨(hl.oracle o).eff (h1 k), rfl⟩
    | crash k => exact ⟨(hl.oracle o).eff (h2 k), trivial⟩

theorem unseen_id : Unseen id := fun _ _ => ⟨rfl, rfl⟩

theorem look_atomicCall {e1 e2 : Event} (he : V e1 = V e2) {eff : World → World} (h : Unseen eff) : LookAlike V Eq (atomicCall e1 eff) (atomicCall e2 eff) := by
  refine look_syscall he h (fun _ => unseen_id) ?_
  intro k w l
  by_cases hk : k = 0
  · simp only [hk, if_true]; exact ⟨trivial, trivial⟩
  · simp only [hk, if_false]; exact h w l

theorem blind_atomicCall (e : Event) {eff : World → World} (h : Unseen eff) : Blind V (atomicCall e eff) := look_atomicCall rfl h

theorem unseen_setFile (p : Path) (f : Option File) : Unseen (fun w => w.setFile p f) := fun _ _ => ⟨rfl, rfl⟩

theorem unseen_setEntry (p : Path) (f : Option File) : Unseen (fun w => w.setEntry p f) := fun _ _ => ⟨rfl, rfl⟩

theorem unseen_append (p : Path) (bs : List Byte) : Unseen (fun w => w.append p bs) := by
  intro w l
  unfold World.append
  simp only
  cases w.fs p with
  | none => exact ⟨rfl, rfl⟩
  | some f => exact ⟨rfl, rfl⟩

theorem blind_peek (p : Path) : Blind V (peek p) := by
  rintro w1 w2 ⟨l, rfl, hl⟩
  exact ⟨⟨l, rfl, hl⟩, rfl⟩

theorem blind_note (e : Event) : Blind V (note e) := fun _ _ hw => ⟨hw.log rfl, rfl⟩

theorem blind_nowNanos : Blind V nowNanos := by
  rintro w1 w2 ⟨l, rfl, hl⟩
  obtain ⟨fs, pend, clock, oracle, umask, cur, log⟩ := w1
  cases clock with
  | nil => exact ⟨⟨l, rfl, hl⟩, rfl⟩
  | cons x c => cases x <;> exact ⟨⟨l, rfl, hl⟩, rfl⟩

theorem blind_openTrunc (p : Path) : Blind V (openTrunc p) := blind_atomicCall _ fun _ _ => ⟨rfl, rfl⟩

theorem blind_writeAll (p : Path) (bs : List Byte) : Blind V (writeAll p bs) := look_syscall rfl (unseen_append p bs) (fun _ => unseen_append p _) fun _ => unseen_append p _

theorem blind_fsync (p : Path) : Blind V (fsync p) := by
  refine blind_atomicCall _ ?_
  intro w l
  simp only
  cases w.fs p with
  | none => exact ⟨rfl, rfl⟩
  | some f => exact ⟨rfl, rfl⟩

theorem blind_rename (a b : Path) : Blind V (rename a b) := by
  unfold rename
  refine blind_bind (blind_peek a) fun f => ?_
  cases f with
  | none => exact blind_throw _
  | some f => exact blind_atomicCall _ fun _ _ => ⟨rfl, rfl⟩

theorem blind_fsyncDir (p : Path) : Blind V (fsyncDir p) := by
  unfold fsyncDir
  split
  · exact blind_note _
  · refine blind_bind (blind_attempt (blind_atomicCall _ fun _ _ => ⟨rfl, rfl⟩)) fun r => ?_
    cases r with
    | ok u => exact blind_pure _
    | error e => exact blind_note _

theorem blind_writeAtomic (p : Path) (bs : List Byte) : Blind V (writeAtomic p bs) := by
  unfold writeAtomic writeAtomicWithMode
  refine blind_bind blind_nowNanos fun n => ?_
  refine blind_bind (blind_openTrunc _) fun _ => ?_
  refine blind_bind (blind_writeAll _ _) fun _ => ?_
  refine blind_bind (blind_fsync _) fun _ => ?_
  refine blind_bind (blind_rename _ _) fun _ => ?_
  exact blind_fsyncDir _

theorem blind_readFile (p : Path) : Blind V (readFile p) := by
  unfold readFile
  refine blind_bind (blind_atomicCall _ unseen_id) fun _ => ?_
  refine blind_bind (blind_peek p) fun f => ?_
  cases f with
  | none => exact blind_throw _
  | some f => exact blind_pure _

theorem blind_acquireLock (p : Path) (held : Bool) : Blind V (acquireLock p held) := by
  unfold acquireLock openCreate
  refine blind_bind (blind_atomicCall _ ?_) fun _ => ?_
  · intro w l
    simp only
    cases w.fs p with
    | none => exact ⟨rfl, rfl⟩
    | some f => exact ⟨rfl, rfl⟩
  refine blind_bind (blind_atomicCall _ unseen_id) fun _ => ?_
  cases held
  · exact blind_pure _
  · exact blind_throw _

/-! ## The counter -/

theorem blind_createAndInit (p : Path) (initial : U128) : Blind V (Counter.createAndInit p initial) := by
  unfold Counter.createAndInit Counter.read
  refine blind_bind (blind_attempt (blind_bind (blind_readFile p) fun data => ?_)) fun r => ?_
  · show Blind V (if data.length < 16 then _ else _)
    split
    · exact blind_throw _
    · exact blind_pure _
  · split
    · exact blind_pure _
    · exact blind_bind (blind_writeAtomic _ _) fun _ => blind_pure _
    · exact blind_throw _

theorem blind_inc (c : Counter) : Blind V c.inc := by
  unfold Counter.inc
  split
  · exact blind_bind (blind_attempt (blind_writeAtomic _ _)) fun _ => blind_pure _
  · exact blind_pure _

theorem blind_runReseed (dir : Path) (held : Bool) : Blind V (runReseed dir held) := by
  unfold runReseed
  exact blind_bind (blind_acquireLock _ _) fun _ => blind_bind blind_nowNanos fun _ => blind_writeAtomic _ _

end

/-! ## Sending -/

/-- Sealed requests look alike to `V`. -/
def SealedAlike (V : Event → γ) (A : Aead) (k : CryptoHandler) : Prop :=
  ∀ iv p q, iv.length = 12 → p.length = 58 → q.length = 58 →
    match encode A k (some iv) p, encode A k (some iv) q with
    | .ok b1, .ok b2 => ∀ ip port c, V (.udp ip port c b1) = V (.udp ip port c b2)
    | .error e1, .error e2 => e1 = e2
    | _, _ => False

/-- Two senders that go the same way. -/
structure SendersAlike (s1 s2 : Sender) : Prop where
  address : s1.cmd.address = s2.cmd.address
  ipv4 : s1.cmd.ipv4 = s2.cmd.ipv4
  ipv6 : s1.cmd.ipv6 = s2.cmd.ipv6
  delay : s1.cmd.delayMs = s2.cmd.delayMs
  handler : s1.handler = s2.handler
  counter : s1.counter = s2.counter

section
variable {V : Event → γ} {A : Aead}

theorem look_sendUdp (addr : SockAddr) (c : U128) {b1 b2 : List Byte} (h : ∀ ip port c, V (.udp ip port c b1) = V (.udp ip port c b2)) :
    LookAlike V Eq (sendUdp addr c b1) (sendUdp addr c b2) := by
  unfold sendUdp
  refine look_bind (blind_atomicCall _ unseen_id) fun _ _ _ => ?_
  refine look_bind (blind_atomicCall _ unseen_id) fun _ _ _ => ?_
  exact look_atomicCall (h _ _ _) unseen_id

theorem look_sendData (hash : List Char → U64) {s1 s2 : Sender} (h : SendersAlike s1 s2) (hs : SealedAlike V A s1.handler) (addr : SockAddr) (rnd : Option (List Byte))
    (hrnd : ∀ iv, rnd = some iv → iv.length = 12) :
    LookAlike V (fun x y => SendersAlike x.1 y.1 ∧ x.1.handler = s1.handler ∧ (x.2 = .ok () ↔ y.2 = .ok ())) (s1.sendData A hash addr rnd) (s2.sendData A hash addr rnd) := by
  unfold Sender.sendData
  refine look_bind (blind_note _) fun _ _ _ => ?_
  rw [← h.counter]
  refine look_bind (blind_inc _) ?_
  rintro ⟨c, r⟩ _ rfl
  have h' : SendersAlike { s1 with counter := c } { s2 with counter := c } := ⟨h.address, h.ipv4, h.ipv6, h.delay, h.handler, rfl⟩
  cases r with
  | error e => exact look_pure ⟨h', rfl, Iff.rfl⟩
  | ok u =>
    have hh := h.handler
    simp only
    cases rnd with
    | none => exact look_pure ⟨h', rfl, Iff.rfl⟩
    | some iv =>
      have hx := hs iv (Sender.request hash { s1 with counter := c } addr.ip).serialize (Sender.request hash { s2 with counter := c } addr.ip).serialize (hrnd iv rfl) (serialize_length _) (serialize_length _)
      rw [show encode A s1.handler (some iv) (Sender.request hash { s2 with counter := c } addr.ip).serialize = encode A s2.handler (some iv) (Sender.request hash { s2 with counter := c } addr.ip).serialize from by rw [hh]] at hx
      generalize encode A s1.handler (some iv) (Sender.request hash { s1 with counter := c } addr.ip).serialize = x, encode A s2.handler (some iv) (Sender.request hash { s2 with counter := c } addr.ip).serialize = y at hx ⊢
      cases x <;> cases y
      · exact look_pure ⟨h', rfl, by simp⟩
      · exact hx.elim
      · exact hx.elim
      · refine look_bind (look_attempt (look_sendUdp addr _ hx)) ?_
        intro x y hxy
        refine look_pure ⟨h', rfl, ?_⟩
        cases x <;> cases y <;> first | exact hxy.elim | simp

theorem look_sendLoop (hash : List Char → U64) (rnd : Nat → Option (List Byte)) (hrnd : ∀ i iv, rnd i = some iv → iv.length = 12) (dsts : List SockAddr) {s1 s2 : Sender} (h : SendersAlike s1 s2)
    (hs : SealedAlike V A s1.handler) (i : Nat) : LookAlike V (fun x y => x.2 = y.2) (s1.sendLoop A hash rnd i dsts) (s2.sendLoop A hash rnd i dsts) := by
  induction dsts generalizing s1 s2 i with
  | nil => exact look_pure rfl
  | cons a rest ih =>
    unfold Sender.sendLoop
    have hp : s1.pause i = s2.pause i := by unfold Sender.pause; rw [h.delay]
    rw [hp]
    refine look_bind (R := Eq) ?_ fun _ _ _ => ?_
    · unfold Sender.pause
      split
      · exact blind_note _
      · exact blind_pure _
    refine look_bind (look_sendData hash h hs a (rnd i) (hrnd i)) ?_
    rintro ⟨x1, r1⟩ ⟨x2, r2⟩ ⟨hx, hh, hr⟩
    have hs' : SealedAlike V A x1.handler := by
      have hh : x1.handler = s1.handler := hh
      rw [hh]; exact hs
    simp only at hr ⊢
    cases r1 <;> cases r2
    · refine look_bind (blind_note _) fun _ _ _ => ?_
      refine look_bind (ih hx hs' (i + 1)) ?_
      rintro ⟨y1, n⟩ ⟨y2, _⟩ rfl
      exact look_pure rfl
    · exact absurd (hr.2 rfl) nofun
    · exact absurd (hr.1 rfl) nofun
    · exact ih hx hs' (i + 1)

theorem look_parseIpOption {a b : SendCmd} (h : SameWay a b) : LookAlike V (fun _ _ => True) (Act.ofExcept (parseIpOption a.ip)) (Act.ofExcept (parseIpOption b.ip)) := by
  have key : ∀ c : SendCmd, (IpRefused c ∧ parseIpOption c.ip = .error .config) ∨ (¬ IpRefused c ∧ ∃ x, parseIpOption c.ip = .ok x) := by
    intro c
    unfold parseIpOption IpRefused
    cases c.ip with
    | none => exact .inr ⟨by simp, _, rfl⟩
    | some t =>
      cases ht : parseIp t with
      | none => exact .inl ⟨⟨t, rfl, ht⟩, by simp [ht]⟩
      | some ip =>
        refine .inr ⟨?_, some ip, by simp [ht]⟩
        rintro ⟨t', e, h'⟩
        cases e
        rw [ht] at h'
        cases h'
  rcases key a with ⟨h1, e1⟩ | ⟨h1, x1, e1⟩ <;> rcases key b with ⟨h2, e2⟩ | ⟨h2, x2, e2⟩ <;> rw [e1, e2]
  · exact look_throw _
  · exact absurd (h.refused.1 h1) h2
  · exact absurd (h.refused.2 h2) h1
  · exact look_pure trivial

theorem look_create (dir : Path) {a b : SendCmd} (h : SameWay a b) (env : SendEnv) :
    LookAlike V (fun s1 s2 => SendersAlike s1 s2 ∧ ∃ key, env.keyText = some key ∧ CryptoHandler.create (trim key) = .ok s1.handler) (Sender.create dir a env) (Sender.create dir b env) := by
  unfold Sender.create
  rw [← h.address]
  refine look_bind (blind_ofExcept _) ?_
  rintro address _ rfl
  refine look_bind (look_parseIpOption h) fun ip1 ip2 _ => ?_
  cases hk : env.keyText with
  | none => exact look_throw _
  | some key =>
    simp only
    refine look_bind (R := fun x y => x = y ∧ CryptoHandler.create (trim key) = .ok x) ?_ ?_
    · cases hc : CryptoHandler.create (trim key) with
      | error e => exact look_throw _
      | ok k => exact look_pure ⟨rfl, rfl⟩
    · rintro k _ ⟨rfl, hc⟩
      refine look_bind blind_nowNanos ?_
      rintro now _ rfl
      refine look_bind (blind_createAndInit _ _) ?_
      rintro c _ rfl
      exact look_pure ⟨⟨rfl, h.ipv4, h.ipv6, h.delay, rfl, rfl⟩, key, rfl, hc⟩

theorem look_send (hash : List Char → U64) {s1 s2 : Sender} (h : SendersAlike s1 s2) (hs : SealedAlike V A s1.handler) (env : SendEnv) (hrnd : ∀ i iv, env.rnd i = some iv → iv.length = 12) :
    LookAlike V Eq (s1.send A hash env) (s2.send A hash env) := by
  unfold Sender.send
  rw [h.ipv4, h.ipv6, h.address]
  refine look_bind (blind_ofExcept _) ?_
  rintro dsts _ rfl
  unfold Sender.sendToDestinations
  refine look_bind (look_sendLoop hash env.rnd hrnd dsts h hs 0) ?_
  rintro ⟨x, n⟩ ⟨y, _⟩ rfl
  show LookAlike V Eq (if dsts ≠ [] ∧ n = dsts.length then Act.throw .notSent else pure ()) (if dsts ≠ [] ∧ n = dsts.length then Act.throw .notSent else pure ())
  split
  · exact look_throw _
  · exact look_pure rfl

theorem look_runSend (hash : List Char → U64) (dir : Path) (held : Bool) {a b : SendCmd} (h : SameWay a b) (env : SendEnv) (hrnd : ∀ i iv, env.rnd i = some iv → iv.length = 12)
    (hs : ∀ k : CryptoHandler, k.id.length = 8 → k.key.length = 32 → SealedAlike V A k) : LookAlike V Eq (runSend A hash dir held a env) (runSend A hash dir held b env) := by
  unfold runSend
  refine look_bind (blind_acquireLock _ _) fun _ _ _ => ?_
  refine look_bind (look_create dir h env) ?_
  rintro s1 s2 ⟨hx, key, _, hc⟩
  obtain ⟨_, hid, hk⟩ := (create_ok_iff _ _).1 hc
  exact look_send hash hx (hs _ hid hk) env hrnd

/-- With a cipher that works, sealed requests show the same to everybody. -/
theorem visible_sealed (hA : A.Correct) (k : CryptoHandler) (hid : k.id.length = 8) (hk : k.key.length = 32) : SealedAlike visible A k := by
  intro iv p q hiv hp hq
  have h (p : List Byte) (hp : p.length = 58) : encode A k (some iv) p = .ok (k.id ++ (iv ++ (A.enc k.key iv p).1 ++ (A.enc k.key iv p).2)) := by
    unfold encode CryptoHandler.encrypt
    simp only
    rw [if_neg (by rw [hA.ct_length _ _ _ hk hiv, hp]; decide)]
  rw [h p hp, h q hq]
  intro ip port c
  have hl (p : List Byte) (hp : p.length = 58) : visible (.udp ip port c (k.id ++ (iv ++ (A.enc k.key iv p).1 ++ (A.enc k.key iv p).2))) = .datagram ip port k.id iv 94 := by
    have h1 := hA.tag_length k.key iv p hk hiv
    have h2 := hA.ct_length k.key iv p hk hiv
    show Visible.datagram ip port (List.take 8 _) (nonceOf _) (List.length _) = _
    unfold nonceOf
    rw [List.take_left' hid, List.drop_left' hid, List.append_assoc, List.take_left' hiv]
    simp [hid, hiv, h1, h2, hp]
  rw [hl p hp, hl q hq]

/-- With a cipher that hides everything, sealed requests are the same. -/
theorem hidden_sealed (hA : Hides A) (k : CryptoHandler) : SealedAlike id A k := by
  intro iv p q _ hp hq
  have h : encode A k (some iv) p = encode A k (some iv) q := by
    unfold encode CryptoHandler.encrypt
    simp only [hA k.key iv p q (by omega)]
  rw [h]
  cases encode A k (some iv) q with
  | error e => rfl
  | ok b => exact fun _ _ _ => rfl

end

/-- Two worlds that are alike to somebody who sees everything are the same. -/
theorem Alike.eq {w1 w2 : World} (h : Alike id w1 w2) : w1 = w2 := by
  obtain ⟨l, rfl, hl⟩ := h
  simp only [List.map_id_fun, id] at hl
  subst hl
  rfl

theorem look_outcome {V : Event → γ} {m1 m2 : Act α} (h : LookAlike V Eq m1 m2) {w1 w2 : World} (hw : Alike V w1 w2) : (m1 w1).1 = (m2 w2).1 := by
  have h := (h w1 w2 hw).2
  generalize (m1 w1).1 = o1, (m2 w2).1 = o2 at h
  cases o1 <;> cases o2 <;> first | exact h.elim | exact congrArg _ h | rfl

/-- **C102a.** Two sends that go the same way look the same to everybody without the key, whatever they ask for: the same datagrams up to what is encrypted (number, order, destinations, key id, nonce, size), the same
pauses, the same failures, the same files with the same contents, the same outcome, whatever fails and wherever the process dies. -/
theorem C102_requests_look_alike (A : Aead) (hA : A.Correct) (hash : List Char → U64) (dir : Path) (held : Bool) (a b : SendCmd) (h : SameWay a b) (env : SendEnv)
    (hrnd : ∀ i iv, env.rnd i = some iv → iv.length = 12) (w : World) :
    (runSend A hash dir held a env w).1 = (runSend A hash dir held b env w).1 ∧
    (runSend A hash dir held a env w).2.log.map visible = (runSend A hash dir held b env w).2.log.map visible ∧
    (runSend A hash dir held a env w).2.fs = (runSend A hash dir held b env w).2.fs := by
  have hl := look_runSend (V := visible) hash dir held h env hrnd (fun k => visible_sealed hA k)
  refine ⟨look_outcome hl (Alike.refl _ w), ?_⟩
  obtain ⟨⟨l, e, hl⟩, _⟩ := hl w w (Alike.refl _ w)
  rw [e]
  exact ⟨hl, rfl⟩

/-- **C102b.** If the cipher hides what it is given, up to its length, the two sends can not be told apart at all: what is asked for leaves the client in no form but encrypted. -/
theorem C102_only_encrypted (A : Aead) (hA : Hides A) (hash : List Char → U64) (dir : Path) (held : Bool) (a b : SendCmd) (h : SameWay a b) (env : SendEnv)
    (hrnd : ∀ i iv, env.rnd i = some iv → iv.length = 12) (w : World) : runSend A hash dir held a env w = runSend A hash dir held b env w := by
  have hl := look_runSend (V := id) hash dir held h env hrnd (fun k _ _ => hidden_sealed hA k)
  exact Prod.ext (look_outcome hl (Alike.refl _ w)) (hl w w (Alike.refl _ w)).1.eq

/-! ## Histories -/

theorem alike_withEnv {V : Event → γ} {w1 w2 : World} (h : Alike V w1 w2) (env : Env) : Alike V (w1.withEnv env []) (w2.withEnv env []) := by
  obtain ⟨l, rfl, hl⟩ := h
  exact ⟨l, rfl, hl⟩

theorem client_step_alike {V : Event → γ} {A : Aead} {hash : List Char → U64} {dir : Path} (hs : ∀ k : CryptoHandler, k.id.length = 8 → k.key.length = 32 → SealedAlike V A k) {w1 w1' w2 : World} {e1 e2 : CEv}
    (h : EvSameWay e1 e2) (h12 : ∀ env held cmd senv, e1 = .send env held cmd senv → ∀ i iv, senv.rnd i = some iv → iv.length = 12) (hst : CStep A hash dir w1 e1 w1') (hw : Alike V w1 w2) :
    ∃ w2', CStep A hash dir w2 e2 w2' ∧ Alike V w1' w2' := by
  cases h with
  | send env held senv hab =>
    cases hst with
    | send _ _ _ _ o _ hr =>
      have hl := (look_runSend hash dir held hab senv (h12 _ _ _ _ rfl) hs _ _ (alike_withEnv hw env)).1
      rw [hr] at hl
      exact ⟨_, .send _ _ _ _ _ _ _ rfl, hl⟩
  | reseed env held =>
    cases hst with
    | reseed _ _ o _ hr =>
      have hl := (blind_runReseed (V := V) dir held _ _ (alike_withEnv hw env)).1
      rw [hr] at hl
      exact ⟨_, .reseed _ _ _ _ _ rfl, hl⟩
  | power =>
    cases hst with
    | power _ hp =>
      obtain ⟨l, rfl, hl⟩ := hw
      exact ⟨{ w1' with log := l }, .power _ _ ⟨hp.entries, hp.nothingPending, rfl⟩, l, rfl, by rw [hp.log, hl]⟩
  | others =>
    cases hst with
    | others _ h1 h2 h3 =>
      obtain ⟨l, rfl, hl⟩ := hw
      exact ⟨{ w1' with log := l }, .others _ _ h1 h2 rfl, l, rfl, by rw [h3, hl]⟩

theorem pointwise_append {R : α → β → Prop} {as : List α} {a : α} {bs : List β} (h : Pointwise R (as ++ [a]) bs) : ∃ bs' b, bs = bs' ++ [b] ∧ Pointwise R as bs' ∧ R a b := by
  induction as generalizing bs with
  | nil =>
    cases h with
    | cons h1 h2 => cases h2; exact ⟨[], _, rfl, .nil, h1⟩
  | cons x xs ih =>
    cases h with
    | cons h1 h2 =>
      obtain ⟨bs', b, rfl, h3, h4⟩ := ih h2
      exact ⟨_ :: bs', b, rfl, .cons h1 h3, h4⟩

theorem run_alike {V : Event → γ} {A : Aead} {hash : List Char → U64} {dir : Path} (hs : ∀ k : CryptoHandler, k.id.length = 8 → k.key.length = 32 → SealedAlike V A k) {w w1 : World} {evs1 : List CEv}
    (hr : CRun A hash dir w evs1 w1) : ∀ {evs2 : List CEv}, Pointwise EvSameWay evs1 evs2 → (∀ env held cmd senv, .send env held cmd senv ∈ evs1 → ∀ i iv, senv.rnd i = some iv → iv.length = 12) →
    ∃ w2, CRun A hash dir w evs2 w2 ∧ Alike V w1 w2 := by
  induction hr with
  | nil => intro evs2 hp _; cases hp; exact ⟨_, .nil _, Alike.refl _ _⟩
  | snoc hr hst ih =>
    intro evs2 hp h12
    obtain ⟨evs2', e2, rfl, hp', he⟩ := pointwise_append hp
    obtain ⟨w2, hr2, hw⟩ := ih hp' fun env held cmd senv hm => h12 env held cmd senv (List.mem_append_left _ hm)
    obtain ⟨w2', hst2, hw'⟩ := client_step_alike hs he (fun env held cmd senv hm => h12 env held cmd senv (by simp [hm])) hst hw
    exact ⟨w2', .snoc hr2 hst2, hw'⟩

/-- **C102c.** The same over whole histories of sends, reseeds, power losses and other processes: a history in which other things are asked for (of the same servers, at the same times) is possible as well, and looks the
same, in its files too. -/
theorem C102_histories_look_alike (A : Aead) (hA : A.Correct) (hash : List Char → U64) (dir : Path) (w w1 : World) (evs1 evs2 : List CEv) (hr : CRun A hash dir w evs1 w1)
    (h12 : ∀ env held cmd senv, .send env held cmd senv ∈ evs1 → ∀ i iv, senv.rnd i = some iv → iv.length = 12) (h : Pointwise EvSameWay evs1 evs2) :
    ∃ w2, CRun A hash dir w evs2 w2 ∧ w1.log.map visible = w2.log.map visible ∧ w1.fs = w2.fs := by
  obtain ⟨w2, h2, l, rfl, hl⟩ := run_alike (V := visible) (fun k => visible_sealed hA k) hr h h12
  exact ⟨_, h2, hl, rfl⟩

/-- **C102d.** What stays visible: each datagram begins with the id of the key. So all requests made with one key can be linked with each other. -/
theorem C102_key_id_is_visible (A : Aead) (hA : A.Correct) (hash : List Char → U64) (dir : Path) (held : Bool) (cmd : SendCmd) (env : SendEnv) (w : World)
    (hrnd : ∀ i iv, env.rnd i = some iv → iv.length = 12) (ip : Ip) (port : Nat) (keyId nonce : List Byte) (size : Nat)
    (hv : .datagram ip port keyId nonce size ∈ ((runSend A hash dir held cmd env w).2.log.drop w.log.length).map visible) :
    size = 94 ∧ ∃ key k, env.keyText = some key ∧ CryptoHandler.create (trim key) = .ok k ∧ keyId = k.id := by
  obtain ⟨e, he, hv⟩ := List.mem_map.1 hv
  cases e with
  | udp ip' port' c bytes =>
    cases hv
    obtain ⟨key, k, _, _, _, h1, h2, _, _, _, h3, h4, _⟩ := C63_datagram_says_what_was_asked A hA hash dir held cmd env w _ _ hrnd rfl ip port c bytes he
    exact ⟨h3, key, k, h1, h2, h4⟩
  | _ => cases hv

/-! ## Examples -/

/-- Another request that goes the same way as `exOpen`: another command, for another address, strict or not the other way round. -/
def exClose : SendCmd := { exOpen with command := "close".toList, ip := some "10.9.8.7".toList, permissive := !exOpen.permissive }

theorem exClose_sameWay : SameWay exOpen exClose := by
  refine ⟨rfl, rfl, rfl, rfl, ⟨?_, ?_⟩⟩
  · rintro ⟨t, h, h'⟩
    exact absurd (show (exOpen.ip.map fun t => (parseIp t).isNone) = some true by rw [h]; simp [h']) (by decide +kernel)
  · rintro ⟨t, h, h'⟩
    exact absurd (show (exClose.ip.map fun t => (parseIp t).isNone) = some true by rw [h]; simp [h']) (by decide +kernel)

theorem exEnv_twelve (key : List Char) : ∀ i iv, (exClientEnv key).rnd i = some iv → iv.length = 12 := by
  intro i iv h
  cases h
  rfl

/-- Non-vacuity of C102a: two datagrams each, with different bytes; they look alike. -/
example :
    let one := (runSend toyAead exHash "/c".toList false exOpen (exClientEnv exClientKey) (exDisk (some (beBytes 16 5000)) [])).2.log
    let two := (runSend toyAead exHash "/c".toList false exClose (exClientEnv exClientKey) (exDisk (some (beBytes 16 5000)) [])).2.log
    one ≠ two ∧ one.map visible = two.map visible ∧
      (one.map visible).filter (fun | .datagram .. => true | _ => false) =
        [.datagram (.v4 0x0a000002) 80 exSenderKey.id (List.replicate 12 0) 94, .datagram (.v6 1) 80 exSenderKey.id (List.replicate 12 1) 94] := by
  refine ⟨by decide +kernel, ?_, by decide +kernel⟩
  exact (C102_requests_look_alike toyAead toyAead_correct exHash _ false exOpen exClose exClose_sameWay _ (exEnv_twelve _) _).2.1

/-- A cipher that hides everything. -/
def exHiding : Aead where
  enc := fun _ _ p => (List.replicate 16 0, List.replicate p.length 0)
  dec := fun _ _ _ _ => none

/-- Non-vacuity of C102b. -/
example : Hides exHiding ∧ (Spec.datagrams (runSend exHiding exHash "/c".toList false exOpen (exClientEnv exClientKey) (exDisk (some (beBytes 16 5000)) [])).2.log).length = 2 := by
  refine ⟨?_, by decide +kernel⟩
  intro key iv p q h
  simp only [exHiding, h]

/-- Non-vacuity of C102c: two histories of a send, a power loss, and another send. -/
example (w1 : World) (hr : CRun toyAead exHash "/c".toList (exDisk none []) [.send ⟨[], List.replicate 9 (some 7)⟩ false exOpen (exClientEnv exClientKey), .power,
      .send ⟨[.ok, .err 0], List.replicate 9 (some 9)⟩ false exClose (exClientEnv exClientKey)] w1) :
    ∃ w2, CRun toyAead exHash "/c".toList (exDisk none []) [.send ⟨[], List.replicate 9 (some 7)⟩ false exClose (exClientEnv exClientKey), .power,
      .send ⟨[.ok, .err 0], List.replicate 9 (some 9)⟩ false exClose (exClientEnv exClientKey)] w2 ∧ w1.log.map visible = w2.log.map visible ∧ w1.fs = w2.fs := by
  refine C102_histories_look_alike toyAead toyAead_correct exHash _ _ _ _ _ hr ?_ (.cons (.send _ _ _ exClose_sameWay) (.cons .power (.cons (.send _ _ _ ⟨rfl, rfl, rfl, rfl, Iff.rfl⟩) .nil)))
  intro env held cmd senv hm
  have : senv = exClientEnv exClientKey := by
    simp at hm
    rcases hm with h | h <;> exact h.2.2.2
  subst this
  exact exEnv_twelve _

end Ruroco
