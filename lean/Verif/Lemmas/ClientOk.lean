import Verif.Props.Client
import Verif.Props.Crypto
import Verif.Spec.Terms.ClientOk

/-! # The client when nothing fails -/

namespace Ruroco

open Spec (datagrams counterOnDisk requestFor)

theorem Works.reading {n : Nat} {w : World} (h : Works (n + 1) w) :
    ∃ t c, w.clock = some t :: c ∧ (∀ t ∈ c, t ≠ none) ∧ n ≤ c.length := by
  have hl := h.length
  have hc := h.clock
  rcases hcl : w.clock with _ | ⟨t, c⟩
  · rw [hcl] at hl; simp at hl
  · rw [hcl] at hl hc
    cases t with
    | none => exact absurd rfl (hc none (by simp))
    | some t => exact ⟨t, c, rfl, fun x hx => hc x (List.mem_cons_of_mem _ hx), by simpa using hl⟩

theorem Works.weaken {n m : Nat} {w : World} (h : Works n w) (hm : m ≤ n) : Works m w := ⟨h.ok, h.clock, Nat.le_trans hm h.length⟩

theorem datagrams_append (a b : List Event) : datagrams (a ++ b) = datagrams a ++ datagrams b := List.filterMap_append ..

theorem datagrams_fileEvents {P : Path → Prop} {l : List Event} (h : FileEvents P l) : datagrams l = [] := by
  unfold datagrams
  rw [List.filterMap_eq_nil_iff]
  intro e he
  have := h e he
  cases e <;> first | rfl | simp_all

theorem wp_and {m : Act α} {w : World} {Q R : Out α → World → Prop} (h : wp m w Q) (h' : wp m w R) : wp m w (fun o w' => Q o w' ∧ R o w') := ⟨h, h'⟩

/-- Writing the counter. -/
theorem counterWrite_ok (c : Counter) (n : Nat) (w : World) (h : Works (n + 1) w) :
    wp c.write w (fun o w' => o = .ok () ∧ Works n w' ∧ datagrams w'.log = datagrams w.log ∧ counterOnDisk w' c.path = some c.count.toNat) := by
  obtain ⟨t, cl, h1, h2, h3⟩ := h.reading
  refine wp_mono (wp_and (Counter.write_spec c w) (writeAtomicWithMode_ok c.path _ none w h.ok t cl h1)) ?_
  rintro o w' ⟨hw, rfl, hok, hcl⟩
  obtain ⟨l, hlog, hl⟩ := hw.log
  refine ⟨rfl, ⟨hok, by rw [hcl]; exact h2, by rw [hcl]; exact h3⟩, by rw [hlog, datagrams_append, datagrams_fileEvents hl, List.append_nil], ?_⟩
  apply counterOnDisk_of_data
  rcases hw.result with ⟨_, _, h⟩ | ⟨⟨f, h, h', _⟩, _⟩
  · exact absurd rfl h
  · exact ⟨f, h, h'⟩

theorem sendUdp_ok (addr : SockAddr) (c : U128) (bytes : List Byte) (n : Nat) (w : World) (h : Works n w) :
    wp (sendUdp addr c bytes) w (fun o w' => o = .ok () ∧ Works n w' ∧ datagrams w'.log = datagrams w.log ++ [(addr.ip, addr.port, c, bytes)]) := by
  unfold sendUdp
  rw [wp_bind]
  refine wp_atomicCall_ok _ _ _ h.ok _ (fun o1 ho1 => ?_)
  simp only [id]
  rw [wp_bind]
  apply wp_atomicCall_ok _ _ _ (by exact ho1)
  intro o2 ho2
  simp only [id]
  apply wp_atomicCall_ok _ _ _ (by exact ho2)
  intro o3 ho3
  refine ⟨rfl, ⟨ho3, h.clock, h.length⟩, ?_⟩
  simp [datagrams, List.filterMap_append]

/-- The datagram of an attempt. -/
theorem packet_exists {A : Aead} (hA : A.Correct) {h : CryptoHandler} (hk : h.key.length = 32) {iv : List Byte} (hiv : iv.length = 12) (d : ClientData) :
    ∃ bytes, encode A h (some iv) d.serialize = .ok bytes := by
  unfold encode
  rw [encrypt_ok hA hk hiv (serialize_length d)]
  exact ⟨_, rfl⟩

theorem sendData_ok {A : Aead} (hA : A.Correct) (hash : List Char → U64) (s : Sender) (a : SockAddr) (iv : List Byte) (n : Nat) (w : World)
    (h : Works (n + 1) w) (hk : s.handler.key.length = 32) (hiv : iv.length = 12) (hroom : s.Room) :
    wp (s.sendData A hash a (some iv)) w (fun o w' => o = .ok (s.bump, .ok ()) ∧ Works n w' ∧ counterOnDisk w' s.counter.path = some (s.counter.count.toNat + 1) ∧
      ∃ bytes, encode A s.handler (some iv) (requestFor hash s a.ip (s.counter.count + 1)).serialize = .ok bytes ∧
        datagrams w'.log = datagrams w.log ++ [(a.ip, a.port, s.counter.count + 1, bytes)]) := by
  unfold Sender.sendData
  rw [wp_bind, wp_note]
  simp only
  rw [wp_bind]
  unfold Counter.inc
  have hroom' : s.counter.count.toNat + 1 < 2 ^ 128 := hroom
  rw [if_pos hroom']
  simp only
  rw [wp_bind, wp_attempt]
  refine wp_mono (counterWrite_ok _ n _ ⟨h.ok, h.clock, h.length⟩) ?_
  rintro o w1 ⟨rfl, hw1, hd1, hc1⟩
  simp only [wp_pure]
  obtain ⟨bytes, hb⟩ := packet_exists hA hk hiv (requestFor hash s a.ip (s.counter.count + 1))
  change wp (match encode A s.handler (some iv) (requestFor hash s a.ip (s.counter.count + 1)).serialize with
    | .error e => pure (s.bump, .error e)
    | .ok bytes => do
      let r ← (sendUdp a s.bump.counter.count bytes).attempt
      pure (s.bump, r)) w1 _
  rw [hb]
  simp only
  rw [wp_bind, wp_attempt]
  refine wp_mono (wp_and (sendUdp_spec a s.bump.counter.count bytes w1) (sendUdp_ok a _ _ n w1 hw1)) ?_
  rintro o w2 ⟨⟨hfs, _⟩, rfl, hw2, hd2⟩
  simp only
  rw [wp_pure]
  refine ⟨rfl, hw2, ?_, bytes, rfl, ?_⟩
  · have : counterOnDisk w2 s.counter.path = counterOnDisk w1 s.counter.path := by unfold counterOnDisk; rw [hfs]
    rw [this, hc1]
    congr 1
    exact bump_count s hroom
  · rw [hd2, hd1]
    simp [datagrams, List.filterMap_append, Sender.bump]

theorem bump_toNat {c : U128} {j : Nat} (h : c.toNat + j < 2 ^ 128) : (c + BitVec.ofNat 128 j).toNat = c.toNat + j := by
  rw [BitVec.toNat_add, BitVec.toNat_ofNat]
  omega

theorem sendLoop_ok {A : Aead} (hA : A.Correct) (hash : List Char → U64) (rnd : Nat → Option (List Byte))
    (hrnd : ∀ i, ∃ iv, rnd i = some iv ∧ iv.length = 12) (dsts : List SockAddr) (s : Sender) (i n : Nat) (w : World) (h : Works (dsts.length + n) w)
    (hk : s.handler.key.length = 32) (hroom : s.counter.count.toNat + dsts.length < 2 ^ 128) :
    wp (s.sendLoop A hash rnd i dsts) w (fun o w' => (∃ s', o = .ok (s', 0)) ∧ Works n w' ∧
      (dsts ≠ [] ∨ counterOnDisk w s.counter.path = some s.counter.count.toNat → counterOnDisk w' s.counter.path = some (s.counter.count.toNat + dsts.length)) ∧
      ∃ l, datagrams w'.log = datagrams w.log ++ l ∧
      l.length = dsts.length ∧ ∀ (j : Nat) (a : SockAddr), dsts[j]? = some a → ∃ c iv bytes, c.toNat = s.counter.count.toNat + 1 + j ∧ rnd (i + j) = some iv ∧ iv.length = 12 ∧
        encode A s.handler (some iv) (requestFor hash s a.ip c).serialize = .ok bytes ∧ l[j]? = some (a.ip, a.port, c, bytes)) := by
  induction dsts generalizing s i w with
  | nil =>
    unfold Sender.sendLoop
    rw [wp_pure]
    exact ⟨⟨s, rfl⟩, ⟨h.ok, h.clock, by simpa using h.length⟩, fun h => h.resolve_left (fun h => h rfl), [], by simp, rfl, by simp⟩
  | cons a rest ih =>
    unfold Sender.sendLoop
    rw [wp_bind]
    have hpause : wp (s.pause i) w (fun o w' => o = .ok () ∧ Works (rest.length + 1 + n) w' ∧ datagrams w'.log = datagrams w.log) := by
      unfold Sender.pause
      split
      · exact ⟨rfl, ⟨h.ok, h.clock, h.length⟩, by simp [note, datagrams]⟩
      · exact ⟨rfl, ⟨h.ok, h.clock, h.length⟩, rfl⟩
    refine wp_mono hpause ?_
    rintro o w1 ⟨rfl, hw1, hd1⟩
    simp only
    rw [wp_bind]
    obtain ⟨iv, hr, hiv⟩ := hrnd i
    rw [hr]
    simp only [List.length_cons] at hroom
    have hR : s.Room := by unfold Sender.Room; omega
    refine wp_mono (sendData_ok hA hash s a iv (rest.length + n) w1 (hw1.weaken (by omega)) hk hiv hR) ?_
    rintro o w2 ⟨rfl, hw2, hdisk, bytes, hb, hd2⟩
    simp only
    have hcnt := bump_count s hR
    refine wp_mono (ih s.bump (i + 1) w2 hw2 hk (by omega)) ?_
    rintro o w3 ⟨ho, hw3, hdisk3, l, hd3, hlen, hl⟩
    refine ⟨ho, hw3, fun _ => ?_, (a.ip, a.port, s.counter.count + 1, bytes) :: l, ?_, by simp [hlen], ?_⟩
    · have h2 := hdisk3 (Or.inr (hdisk.trans (by rw [← hcnt])))
      rw [List.length_cons, Nat.add_comm rest.length 1, ← Nat.add_assoc, ← hcnt]
      exact h2
    · rw [hd3, hd2, hd1]
      simp
    · intro j b hj
      cases j with
      | zero =>
        simp at hj
        subst hj
        exact ⟨s.counter.count + 1, iv, bytes, hcnt, hr, hiv, hb, rfl⟩
      | succ j =>
        obtain ⟨c, iv', bytes', h1, h2, h3, h4, h5⟩ := hl j b (by simpa using hj)
        exact ⟨c, iv', bytes', by omega, by rw [← h2]; congr 1; omega, h3, h4, by simpa using h5⟩

theorem acquireLock_ok (p : Path) (n : Nat) (w : World) (h : Works n w) (P : Path) (hne : p ≠ P) :
    wp (acquireLock p false) w (fun o w' => o = .ok () ∧ Works n w' ∧ datagrams w'.log = datagrams w.log ∧ w'.fs P = w.fs P ∧ w'.clock = w.clock) := by
  unfold acquireLock openCreate
  rw [wp_bind]
  refine wp_atomicCall_ok _ _ _ h.ok _ (fun o1 ho1 => ?_)
  simp only
  rw [wp_bind]
  have hset : ∀ (w : World) (f : File), (w.setEntry p (some f)).fs P = w.fs P := by
    intro w f
    unfold World.setEntry
    simp [Ne.symm hne]
  split
  · apply wp_atomicCall_ok _ _ _ (by exact ho1)
    intro o2 ho2
    refine ⟨rfl, ⟨ho2, h.clock, h.length⟩, ?_, rfl, rfl⟩
    simp [datagrams, pure, Act.pure]
  · apply wp_atomicCall_ok _ _ _ (by exact ho1)
    intro o2 ho2
    refine ⟨rfl, ⟨ho2, h.clock, h.length⟩, ?_, ?_, rfl⟩
    · simp [datagrams, pure, Act.pure, World.setEntry]
    · simp only [Bool.false_eq_true, if_false, pure, Act.pure, id]
      rw [← hset w ⟨[], World.newMode { w with log := w.log ++ [.file .openTrunc p], oracle := o1 }, false, .creator⟩]
      rfl

theorem counterRead_ok (p : Path) (n : Nat) (w : World) (h : Works n w) (c : U128) (hc : counterOnDisk w p = some c.toNat) :
    wp (Counter.read p) w (fun o w' => o = .ok c ∧ Works n w' ∧ datagrams w'.log = datagrams w.log) := by
  unfold counterOnDisk at hc
  split at hc
  · cases hc
  · rename_i f hf
    split at hc
    · rename_i h16
      injection hc with hc
      unfold Counter.read readFile
      rw [wp_bind, wp_bind]
      refine wp_atomicCall_ok _ _ _ h.ok _ (fun o1 ho1 => ?_)
      simp only [id]
      rw [wp_bind, wp_peek]
      simp only [hf]
      rw [wp_pure]
      simp only
      rw [if_neg (by omega), wp_pure]
      refine ⟨?_, ⟨ho1, h.clock, h.length⟩, by simp [datagrams]⟩
      rw [hc, BitVec.ofNat_toNat, BitVec.setWidth_eq]
    · cases hc

theorem counterRead_absent (p : Path) (n : Nat) (w : World) (h : Works n w) (hc : w.fs p = none) :
    wp (Counter.read p) w (fun o w' => o = .err .notFound ∧ Works n w' ∧ datagrams w'.log = datagrams w.log) := by
  unfold Counter.read readFile
  rw [wp_bind, wp_bind]
  refine wp_atomicCall_ok _ _ _ h.ok _ (fun o1 ho1 => ?_)
  simp only [id]
  rw [wp_bind, wp_peek]
  simp only [hc]
  rw [wp_throw]
  exact ⟨rfl, ⟨ho1, h.clock, h.length⟩, by simp [datagrams]⟩

/-- Opening the counter: the value on disk, or, if there is no file, the initial one. -/
theorem createAndInit_ok (p : Path) (initial c : U128) (n : Nat) (w : World) (h : Works (n + 1) w)
    (hc : counterOnDisk w p = some c.toNat ∨ (w.fs p = none ∧ c = initial)) :
    wp (Counter.createAndInit p initial) w (fun o w' => o = .ok ⟨p, c⟩ ∧ Works n w' ∧ datagrams w'.log = datagrams w.log) := by
  unfold Counter.createAndInit
  rw [wp_bind, wp_attempt]
  rcases hc with hc | ⟨hc, rfl⟩
  · refine wp_mono (counterRead_ok p (n + 1) w h c hc) ?_
    rintro o w1 ⟨rfl, hw1, hd1⟩
    simp only
    rw [wp_pure]
    exact ⟨rfl, hw1.weaken (by omega), hd1⟩
  · refine wp_mono (counterRead_absent p (n + 1) w h hc) ?_
    rintro o w1 ⟨rfl, hw1, hd1⟩
    simp only
    rw [wp_bind]
    refine wp_mono (counterWrite_ok _ n w1 hw1) ?_
    rintro o w2 ⟨rfl, hw2, hd2, _⟩
    simp only
    rw [wp_pure]
    exact ⟨rfl, hw2, by rw [hd2, hd1]⟩

theorem counterPath_ne_lock (dir : Path) : dir ++ "/client.lock".toList ≠ counterPath dir := by
  unfold counterPath
  intro h
  exact absurd (List.append_cancel_left h) (by decide)

/-- What is true after sending to `dsts` with counters from `c` on. -/
def SentAll (A : Aead) (hash : List Char → U64) (dir : Path) (cmd : SendCmd) (rnd : Nat → Option (List Byte)) (h : CryptoHandler) (srcIp : Option Ip) (dsts : List SockAddr) (c : U128) (w : World) (o : Out Unit)
    (w' : World) : Prop :=
  o = .ok () ∧ (dsts ≠ [] → counterOnDisk w' (counterPath dir) = some (c.toNat + dsts.length)) ∧
      ∃ l, datagrams w'.log = datagrams w.log ++ l ∧
      l.length = dsts.length ∧ ∀ (j : Nat) (a : SockAddr), dsts[j]? = some a → ∃ c' iv bytes, c'.toNat = c.toNat + 1 + j ∧ rnd j = some iv ∧ iv.length = 12 ∧
        encode A h (some iv) (ClientData.serialize
          { cmdHash := hash cmd.command, counter := c', strict := !cmd.permissive, srcIp, dstIp := a.ip }) = .ok bytes ∧
        l[j]? = some (a.ip, a.port, c', bytes)

theorem createSend_ok {A : Aead} (hA : A.Correct) (hash : List Char → U64) (dir : Path) (cmd : SendCmd) (env : SendEnv) (w : World) (h : CryptoHandler)
    (srcIp : Option Ip) (dsts : List SockAddr) (c : U128) (hs : CanSend dir cmd env w h srcIp dsts c) :
    wp (do let s ← Sender.create dir cmd env; s.send A hash env) w (fun o w' => SentAll A hash dir cmd env.rnd h srcIp dsts c w o w' ∧ AllOk w') := by
  obtain ⟨full, ha, hd⟩ := hs.address
  obtain ⟨text, hkt, hk⟩ := hs.key
  obtain ⟨_, hidl, hkl⟩ := (create_ok_iff _ _).1 hk
  rw [wp_bind]
  have hcreate : wp (Sender.create dir cmd env) w (fun o w' => o = .ok { cmd := { cmd with address := full }, srcIp, handler := h, counter := ⟨counterPath dir, c⟩ } ∧
      Works dsts.length w' ∧ datagrams w'.log = datagrams w.log) := by
    unfold Sender.create
    rw [wp_bind, wp_ofExcept, ha]
    simp only
    rw [wp_bind, wp_ofExcept, hs.ip]
    simp only [hkt]
    rw [wp_bind, wp_ofExcept, hk]
    simp only
    rw [wp_bind]
    obtain ⟨t, cl, h1, h2, h3⟩ := Works.reading (n := dsts.length + 1) hs.works
    rw [wp_nowNanos_some w t cl h1]
    simp only
    rw [wp_bind]
    refine wp_mono (createAndInit_ok (counterPath dir) t c dsts.length _ ⟨hs.works.ok, h2, h3⟩ ?_) ?_
    · rcases hs.counter with h | ⟨h, h'⟩
      · exact Or.inl h
      · right
        rw [h1] at h'
        simp at h'
        exact ⟨h, h'.symm⟩
    · rintro o w2 ⟨rfl, hw2, hd2⟩
      simp only
      rw [wp_pure]
      exact ⟨rfl, hw2, hd2⟩
  refine wp_mono hcreate ?_
  rintro o w2 ⟨rfl, hw2, hd2⟩
  simp only
  unfold Sender.send
  rw [wp_bind, wp_ofExcept]
  simp only [hd]
  unfold Sender.sendToDestinations
  rw [wp_bind]
  refine wp_mono (sendLoop_ok hA hash env.rnd hs.random dsts _ 0 0 w2 hw2 hkl hs.room) ?_
  rintro o w3 ⟨⟨s', rfl⟩, hw3, hdisk, l, hd3, hlen, hl⟩
  simp only
  rw [if_neg, wp_pure]
  · refine ⟨⟨rfl, fun hne => hdisk (Or.inl hne), l, by rw [hd3, hd2], hlen, ?_⟩, hw3.ok⟩
    intro j a hj
    obtain ⟨c', iv, bytes, h1, h2, h3⟩ := hl j a hj
    exact ⟨c', iv, bytes, h1, by rw [Nat.zero_add] at h2; exact h2, h3⟩
  · rintro ⟨hne, h0⟩
    exact hne (List.length_eq_zero_iff.1 h0.symm)

theorem runSend_ok {A : Aead} (hA : A.Correct) (hash : List Char → U64) (dir : Path) (cmd : SendCmd) (env : SendEnv) (w : World) (h : CryptoHandler)
    (srcIp : Option Ip) (dsts : List SockAddr) (c : U128) (hs : CanSend dir cmd env w h srcIp dsts c) :
    wp (runSend A hash dir false cmd env) w (SentAll A hash dir cmd env.rnd h srcIp dsts c w) := by
  unfold runSend
  rw [wp_bind]
  refine wp_mono (acquireLock_ok _ (dsts.length + 2) w hs.works (counterPath dir) (counterPath_ne_lock dir)) ?_
  rintro o w1 ⟨rfl, hw1, hd1, hf1, hc1⟩
  simp only
  have hs1 : CanSend dir cmd env w1 h srcIp dsts c := by
    refine ⟨hw1, hs.address, hs.ip, hs.key, hs.random, ?_, hs.room⟩
    rcases hs.counter with h | ⟨h, h'⟩
    · left
      unfold counterOnDisk at h ⊢
      rw [hf1]
      exact h
    · exact Or.inr ⟨by rw [hf1, h], by rw [hc1, h']⟩
  refine wp_mono (createSend_ok hA hash dir cmd env w1 h srcIp dsts c hs1) ?_
  rintro o w2 ⟨⟨ho, hdisk, l, hd2, hlen, hl⟩, _⟩
  exact ⟨ho, hdisk, l, by rw [hd2, hd1], hlen, hl⟩

end Ruroco
