import Verif.Spec.Stamp
import Verif.Props.ClientHistory
import Verif.Props.SendContent
import Verif.Lemmas.ClientOk

/-! # C109: the client is a numbering stamp -/

namespace Ruroco

open Spec (datagrams counterOnDisk IsPacket PowerLoss Survives Durable Reading reading Stamp Letter Means asks Stamps ClientTrouble NoRandom StampStep StampRun)

/-- The installation looks like the stamp. -/
structure ShowsStamp (pw : Bool) (P : Path) (w : World) (s : Stamp) : Prop where
  shows : reading (w.fs P) = s.shows
  back : pw = true → ∀ f ∈ w.pend P, reading f ∈ s.back
  synced : pw = true → ∀ f ∈ w.fs P :: w.pend P, ∀ file, f = some file → file.synced = true

theorem ShowsStamp.same {pw : Bool} {P : Path} {w w' : World} {s : Stamp} (h : ShowsStamp pw P w s) (hfs : w'.fs P = w.fs P) (hpend : w'.pend P = w.pend P) : ShowsStamp pw P w' s :=
  ⟨by rw [hfs]; exact h.shows, by rw [hpend]; exact h.back, by rw [hfs, hpend]; exact h.synced⟩

theorem reading_counter {f : File} {v : U128} (h : f.data = beBytes 16 v.toNat) : reading (some f) = .number v.toNat := by
  unfold reading
  simp only
  rw [h, if_pos (by simp), List.take_of_length_le (by simp), ofBE_beBytes, Nat.mod_eq_of_lt]
  have := v.isLt
  omega

theorem reading_counterOnDisk {w : World} {P : Path} {n : Nat} : counterOnDisk w P = some n ↔ reading (w.fs P) = .number n := by
  unfold counterOnDisk reading
  cases w.fs P with
  | none => simp
  | some f =>
    simp only
    split <;> simp

theorem reading_nothing {w : World} {P : Path} : reading (w.fs P) = .nothing ↔ w.fs P = none := by
  unfold reading
  cases w.fs P with
  | none => simp
  | some f =>
    simp only
    split <;> simp

/-- Writing a number. -/
theorem ShowsStamp.wrote {pw : Bool} {P : Path} {w w' : World} {s : Stamp} {v : U128} {o : Out Unit} (h : ShowsStamp pw P w s) (hw : WroteAtomic P (beBytes 16 v.toNat) none o w w')
    (hs : SyncedAt pw P w'.log) :
    ∃ s', ShowsStamp pw P w' s' ∧ (∀ x ∈ s'.all, x ∈ s.all ∨ x = .number v.toNat) ∧ (o = .ok () → s' = ⟨.number v.toNat, []⟩) := by
  rcases hw.result with ⟨h1, h2, h3⟩ | ⟨⟨f, h1, h2, h3, _⟩, h4, h5, h6⟩
  · exact ⟨s, h.same h1 h2, fun x hx => .inl hx, fun ho => absurd ho h3⟩
  · have hsyn : pw = true → ∀ g ∈ w'.fs P :: w'.pend P, ∀ file, g = some file → file.synced = true := by
      intro hp g hg file hfile
      rcases List.mem_cons.1 hg with rfl | hg
      · rw [h1] at hfile
        cases hfile
        exact h3
      · exact h.synced hp g (h4 g hg) file hfile
    by_cases ho : o = .ok ()
    · refine ⟨⟨.number v.toNat, []⟩, ⟨by rw [h1]; exact reading_counter h2, fun hp g hg => ?_, hsyn⟩, fun x hx => .inr (by simpa [Stamp.all] using hx), fun _ => rfl⟩
      rw [h6 ho (fun hm => hs hp (List.mem_of_mem_drop hm))] at hg
      cases hg
    · refine ⟨⟨.number v.toNat, s.all⟩, ⟨by rw [h1]; exact reading_counter h2, fun hp g hg => ?_, hsyn⟩, ?_, fun h => absurd h ho⟩
      · rcases List.mem_cons.1 (h4 g hg) with rfl | hg
        · rw [h.shows]
          exact List.mem_cons_self ..
        · exact List.mem_cons_of_mem _ (h.back hp g hg)
      · intro x hx
        rcases List.mem_cons.1 hx with rfl | hx
        · exact .inr rfl
        · exact .inl hx

theorem datagrams_net {a : SockAddr} {c : U128} {bytes : List Byte} {sent : Bool} {l : List Event} (h : NetEvents a c bytes sent l) :
    datagrams l = if sent then [(a.ip, a.port, c, bytes)] else [] := by
  obtain ⟨n, rfl⟩ := h.shape
  rw [datagrams_append]
  have : datagrams (List.replicate n .udpSocket) = [] := by
    unfold datagrams
    rw [List.filterMap_eq_nil_iff]
    intro e he
    rw [List.eq_of_mem_replicate he]
  rw [this]
  cases sent <;> rfl

theorem datagrams_wrote {P : Path} {b : List Byte} {m : Option Nat} {o : Out Unit} {w w' : World} (h : WroteAtomic P b m o w w') : datagrams w'.log = datagrams w.log := by
  obtain ⟨l, h1, h2⟩ := h.log
  rw [h1, datagrams_append, datagrams_fileEvents h2, List.append_nil]

theorem ofNat_bump {s : Sender} (h : s.Room) : BitVec.ofNat 128 (s.counter.count.toNat + 1) = s.bump.counter.count := by
  apply BitVec.eq_of_toNat_eq
  rw [bump_count s h, BitVec.toNat_ofNat, Nat.mod_eq_of_lt h]

/-- One attempt: a number is taken, and a datagram goes out with it or it is wasted. -/
theorem stamp_attempt {A : Aead} {hash : List Char → U64} {pw : Bool} {s : Sender} {a : SockAddr} {rnd : Option (List Byte)} {w w' : World} {o : Out (Sender × Except Err Unit)} {st : Stamp}
    {ask : Ip → Nat → ClientData} (hask : s.Room → ask a.ip (s.counter.count.toNat + 1) = s.bump.request hash a.ip)
    (h : ShowsStamp pw s.counter.path w st) (hat : Attempt A hash s a rnd w o w') (hs : SyncedAt pw s.counter.path w'.log) :
    ∃ st1 out1, ShowsStamp pw s.counter.path w' st1 ∧ datagrams w'.log = datagrams w.log ++ out1 ∧
      (∀ dsts out st', (∀ s' r, o = .ok (s', r) → s'.counter.path = s.counter.path → Stamps A s.handler ask st1 s'.counter.count.toNat dsts out st') → o ≠ .crash →
        Stamps A s.handler ask st s.counter.count.toNat (a :: dsts) (out1 ++ out) st') ∧
      (∀ dsts, o = .crash → Stamps A s.handler ask st s.counter.count.toNat (a :: dsts) out1 st1) := by
  have hto : ∀ x, datagrams (w.log ++ [Event.sendTo a.ip x]) = datagrams w.log := by
    intro x
    rw [datagrams_append]
    exact List.append_nil _
  cases hat with
  | overflow hroom w' hfs hpend hlog =>
    refine ⟨st, [], h.same (by rw [hfs]) (by rw [hpend]), by rw [hlog, hto, List.append_nil], ?_, nofun⟩
    intro dsts out st' hrest _
    refine .full _ _ _ _ _ _ ?_ (hrest s _ rfl rfl)
    unfold Sender.Room at hroom
    omega
  | writeFailed hroom e w' hw =>
    obtain ⟨st1, h1, h2, _⟩ := ShowsStamp.wrote (h.same (w' := { w with log := w.log ++ [.sendTo a.ip a.port] }) rfl rfl) hw hs
    refine ⟨st1, [], h1, by rw [datagrams_wrote hw, hto, List.append_nil], ?_, nofun⟩
    intro dsts out st' hrest _
    have := hrest s.bump _ rfl rfl
    rw [bump_count s hroom] at this h2
    exact .wasted _ _ _ _ _ _ _ hroom h2 this
  | writeCrashed hroom w' hw =>
    obtain ⟨st1, h1, h2, _⟩ := ShowsStamp.wrote (h.same (w' := { w with log := w.log ++ [.sendTo a.ip a.port] }) rfl rfl) hw hs
    refine ⟨st1, [], h1, by rw [datagrams_wrote hw, hto, List.append_nil], fun _ _ _ _ h => absurd rfl h, ?_⟩
    intro dsts _
    rw [bump_count s hroom] at h2
    exact .wasted _ _ _ _ _ _ _ hroom h2 (.stop ..)
  | encryptFailed hroom e w' henc hw =>
    obtain ⟨st1, h1, h2, _⟩ := ShowsStamp.wrote (h.same (w' := { w with log := w.log ++ [.sendTo a.ip a.port] }) rfl rfl) hw hs
    refine ⟨st1, [], h1, by rw [datagrams_wrote hw, hto, List.append_nil], ?_, nofun⟩
    intro dsts out st' hrest _
    have := hrest s.bump _ rfl rfl
    rw [bump_count s hroom] at this h2
    exact .wasted _ _ _ _ _ _ _ hroom h2 this
  | net hroom bytes w1 w' henc hw hfs hpend sent l hl hlog o ho =>
    have hs1 : SyncedAt pw s.counter.path w1.log := by rw [hlog] at hs; exact hs.mono
    obtain ⟨st1, h1, h2, h3⟩ := ShowsStamp.wrote (h.same (w' := { w with log := w.log ++ [.sendTo a.ip a.port] }) rfl rfl) hw hs1
    have h3 := h3 rfl
    rw [bump_count s hroom] at h3
    subst h3
    have hpk : IsPacket A s.handler (ask a.ip (s.counter.count.toNat + 1)) bytes := by
      rw [hask hroom]
      exact encode_isPacket henc
    have hd : datagrams w'.log = datagrams w.log ++ (if sent then [(a.ip, a.port, s.bump.counter.count, bytes)] else []) := by
      rw [hlog, datagrams_append, datagrams_wrote hw, hto, datagrams_net hl]
    refine ⟨⟨.number (s.counter.count.toNat + 1), []⟩, _, h1.same (by rw [hfs]) (by rw [hpend]), hd, ?_, ?_⟩
    · intro dsts out st' hrest hne
      have hrest : Stamps A s.handler ask ⟨.number (s.counter.count.toNat + 1), []⟩ (s.counter.count.toNat + 1) dsts out st' := by
        rw [← bump_count s hroom]
        rcases ho with ho | ho | ⟨ho, _⟩
        · exact absurd ho hne
        · have := hrest s.bump _ ho rfl
          rw [bump_count s hroom] at this ⊢
          exact this
        · have := hrest s.bump _ ho rfl
          rw [bump_count s hroom] at this ⊢
          exact this
      cases sent with
      | true =>
        have := Stamps.sent (A := A) (key := s.handler) (ask := ask) st st' s.counter.count.toNat a dsts out bytes hroom hpk hrest
        rw [ofNat_bump hroom] at this
        exact this
      | false => exact .wasted _ _ _ _ _ _ _ hroom (fun x hx => .inr (by simpa [Stamp.all] using hx)) hrest
    · intro dsts _
      cases sent with
      | true =>
        have := Stamps.sent (A := A) (key := s.handler) (ask := ask) st _ s.counter.count.toNat a dsts [] bytes hroom hpk (.stop ..)
        rw [ofNat_bump hroom] at this
        exact this
      | false => exact .wasted _ _ _ _ _ _ _ hroom (fun x hx => .inr (by simpa [Stamp.all] using hx)) (.stop ..)

theorem sendLoop_grows (A : Aead) (hash : List Char → U64) (rnd : Nat → Option (List Byte)) (s : Sender) (i : Nat) (dsts : List SockAddr) (w : World) :
    wp (s.sendLoop A hash rnd i dsts) w (fun _ w' => ∃ l, w'.log = w.log ++ l) := by
  refine wp_mono (logs_sendLoop A hash rnd dsts s i dsts (fun a h => h) w) ?_
  rintro o w' ⟨l, h, _⟩
  exact ⟨l, h⟩

theorem datagrams_note {w : World} {e : Event} (h : ∀ ip port c b, e ≠ .udp ip port c b) : datagrams (w.log ++ [e]) = datagrams w.log := by
  rw [datagrams_append]
  cases e <;> first | exact List.append_nil _ | exact absurd rfl (h _ _ _ _)

/-- The loop over the destinations stamps them one after the other. -/
theorem stamp_loop (A : Aead) (hash : List Char → U64) (rnd : Nat → Option (List Byte)) (pw : Bool) (P : Path) (key : CryptoHandler) (ask : Ip → Nat → ClientData) (dsts : List SockAddr) (s : Sender)
    (hask : ∀ ip n, ask ip n = { cmdHash := hash s.cmd.command, counter := BitVec.ofNat 128 n, strict := !s.cmd.permissive, srcIp := s.srcIp, dstIp := ip }) (hk : s.handler = key)
    (hp : s.counter.path = P) (i : Nat) (w : World) (st : Stamp) (h : ShowsStamp pw P w st) :
    wp (s.sendLoop A hash rnd i dsts) w (fun _ w' => SyncedAt pw P w'.log → ∃ st' out, ShowsStamp pw P w' st' ∧ datagrams w'.log = datagrams w.log ++ out ∧
      Stamps A key ask st s.counter.count.toNat dsts out st') := by
  induction dsts generalizing s i w st with
  | nil => exact fun _ => ⟨st, [], h, by simp [pure, Act.pure, Sender.sendLoop], .stop ..⟩
  | cons a rest ih =>
    subst hk
    unfold Sender.sendLoop
    rw [wp_bind]
    have hpause : wp (s.pause i) w (fun o w' => o = .ok () ∧ w'.fs = w.fs ∧ w'.pend = w.pend ∧ datagrams w'.log = datagrams w.log) := by
      unfold Sender.pause
      split
      · exact ⟨rfl, rfl, rfl, datagrams_note nofun⟩
      · exact ⟨rfl, rfl, rfl, rfl⟩
    refine wp_mono hpause ?_
    rintro o w1 ⟨rfl, hfs1, hpend1, hd1⟩
    simp only
    have h1 : ShowsStamp pw P w1 st := h.same (by rw [hfs1]) (by rw [hpend1])
    rw [wp_bind]
    refine wp_mono (sendData_spec A hash s a (rnd i) w1) ?_
    intro o w2 hat
    have hask' : s.Room → ask a.ip (s.counter.count.toNat + 1) = s.bump.request hash a.ip := by
      intro hroom
      rw [hask, ofNat_bump hroom]
      rfl
    cases o with
    | err e => exact absurd hat attempt_noErr
    | crash =>
      intro hs
      obtain ⟨st1, out1, k1, k2, _, k4⟩ := stamp_attempt (ask := ask) hask' (by rw [hp]; exact h1) hat (by rw [hp]; exact hs)
      exact ⟨st1, out1, by rw [← hp]; exact k1, by rw [k2, hd1], k4 rest rfl⟩
    | ok x =>
      obtain ⟨s1, r⟩ := x
      have hsame : s1.cmd = s.cmd ∧ s1.srcIp = s.srcIp ∧ s1.handler = s.handler ∧ s1.counter.path = P := by
        rcases (attempt_trace hat).1 with rfl | rfl
        · exact ⟨rfl, rfl, rfl, hp⟩
        · exact ⟨rfl, rfl, rfl, hp⟩
      obtain ⟨e1, e2, e3, e4⟩ := hsame
      have hask1 : ∀ ip n, ask ip n = { cmdHash := hash s1.cmd.command, counter := BitVec.ofNat 128 n, strict := !s1.cmd.permissive, srcIp := s1.srcIp, dstIp := ip } := by
        rw [e1, e2]; exact hask
      -- the rest of the loop, from a world with the same files
      have fin : ∀ w3 : World, w3.fs = w2.fs → w3.pend = w2.pend → datagrams w3.log = datagrams w2.log → (∃ l, w3.log = w2.log ++ l) →
          wp (s1.sendLoop A hash rnd (i + 1) rest) w3 (fun _ w' => SyncedAt pw P w'.log → ∃ st' out, ShowsStamp pw P w' st' ∧ datagrams w'.log = datagrams w.log ++ out ∧
            Stamps A s.handler ask st s.counter.count.toNat (a :: rest) out st') := by
        intro w3 hf hpd hdd ⟨l3, hl3⟩
        by_cases hs2 : SyncedAt pw P w2.log
        · obtain ⟨st1, out1, k1, k2, k3, _⟩ := stamp_attempt (ask := ask) hask' (by rw [hp]; exact h1) hat (by rw [hp]; exact hs2)
          rw [hp] at k1
          refine wp_mono (ih s1 hask1 e3 e4 (i + 1) w3 st1 (k1.same (by rw [hf]) (by rw [hpd]))) ?_
          intro o w4 h4 hs4
          obtain ⟨st', out, a1, a2, a3⟩ := h4 hs4
          refine ⟨st', out1 ++ out, a1, by rw [a2, hdd, k2, hd1, List.append_assoc], k3 rest out st' ?_ nofun⟩
          intro s' r' ho _
          cases ho
          exact a3
        · refine wp_mono (sendLoop_grows A hash rnd s1 (i + 1) rest w3) ?_
          rintro o w4 ⟨l4, hl4⟩ hs4
          rw [hl4, hl3, List.append_assoc] at hs4
          exact absurd hs4.mono hs2
      simp only
      cases r with
      | ok u => exact fin w2 rfl rfl rfl ⟨[], by simp⟩
      | error e =>
        simp only
        rw [wp_bind, wp_note]
        simp only
        rw [wp_bind]
        refine wp_mono (fin { w2 with log := w2.log ++ [.sendFailed a.ip a.port] } rfl rfl (datagrams_note nofun) ⟨_, rfl⟩) ?_
        intro o w4 h4
        cases o <;> exact h4

/-! ## Lock and counter -/

/-- Taking the lock changes nothing that matters here. -/
theorem lock_quiet (p P : Path) (hne : p ≠ P) (held : Bool) (w : World) :
    wp (acquireLock p held) w (fun o w' => w'.fs P = w.fs P ∧ w'.pend P = w.pend P ∧ w'.clock = w.clock ∧ datagrams w'.log = datagrams w.log ∧ (∃ l, w'.log = w.log ++ l) ∧ (o = .ok () → held = false)) := by
  have hset : ∀ (w : World) (f : File), (w.setEntry p (some f)).fs P = w.fs P ∧ (w.setEntry p (some f)).pend P = w.pend P := by
    intro w f
    unfold World.setEntry
    simp [Ne.symm hne]
  unfold acquireLock openCreate
  rw [wp_bind]
  have h3 : ∀ w1 : World, w1.fs P = w.fs P → w1.pend P = w.pend P → w1.clock = w.clock → datagrams w1.log = datagrams w.log → (∃ l, w1.log = w.log ++ l) →
      wp (do atomicCall (.file .lock p) id; if held then Act.throw .locked else pure ()) w1 (fun o w' => w'.fs P = w.fs P ∧ w'.pend P = w.pend P ∧ w'.clock = w.clock ∧
        datagrams w'.log = datagrams w.log ∧ (∃ l, w'.log = w.log ++ l) ∧ (o = .ok () → held = false)) := by
    intro w1 a1 a2 a3 a4 ⟨l, a5⟩
    have a4' : datagrams (w1.log ++ [Event.file .lock p]) = datagrams w.log := (datagrams_note (e := .file .lock p) nofun).trans a4
    have a5' : ∃ l, w1.log ++ [Event.file .lock p] = w.log ++ l := ⟨l ++ [.file .lock p], by rw [a5, List.append_assoc]⟩
    rw [wp_bind]
    apply wp_atomicCall <;> intro o
    · simp only [id]
      cases held with
      | true => exact ⟨a1, a2, a3, a4', a5', nofun⟩
      | false => exact ⟨a1, a2, a3, a4', a5', fun _ => rfl⟩
    · exact ⟨a1, a2, a3, a4', a5', nofun⟩
    · exact ⟨a1, a2, a3, a4', a5', nofun⟩
    · exact ⟨a1, a2, a3, a4', a5', nofun⟩
  have d1 : datagrams (w.log ++ [Event.file .openTrunc p]) = datagrams w.log := datagrams_note nofun
  apply wp_atomicCall <;> intro o
  · simp only
    cases hf : w.fs p with
    | some f => exact h3 _ rfl rfl rfl d1 ⟨_, rfl⟩
    | none => exact h3 _ (hset _ _).1 (hset _ _).2 rfl d1 ⟨_, rfl⟩
  · exact ⟨rfl, rfl, rfl, d1, ⟨_, rfl⟩, nofun⟩
  · exact ⟨rfl, rfl, rfl, d1, ⟨_, rfl⟩, nofun⟩
  · simp only
    cases hf : w.fs p with
    | some f => exact ⟨rfl, rfl, rfl, d1, ⟨_, rfl⟩, nofun⟩
    | none => exact ⟨(hset _ _).1, (hset _ _).2, rfl, d1, ⟨_, rfl⟩, nofun⟩

theorem datagrams_readOnly {p : Path} {w w' : World} (h : ReadOnly p w w') : datagrams w'.log = datagrams w.log := by
  obtain ⟨l, h1, h2⟩ := h.log
  rw [h1, datagrams_append]
  have : datagrams l = [] := by
    unfold datagrams
    rw [List.filterMap_eq_nil_iff]
    intro e he
    rw [h2 e he]
  rw [this, List.append_nil]

/-- What opening the counter does to the stamp. -/
theorem stamp_init {pw : Bool} {P : Path} {w w' : World} {s : Stamp} {t : U128} {o : Out Counter} (h : ShowsStamp pw P w s) (hi : Init P t w o w') (hs : SyncedAt pw P w'.log) :
    ∃ s', ShowsStamp pw P w' s' ∧ datagrams w'.log = datagrams w.log ∧ (∀ x ∈ s'.all, x ∈ s.all ∨ (s.shows = .nothing ∧ x = .number t.toNat)) ∧
      ∀ c, o = .ok c → c.path = P ∧ ((s.shows = .number c.count.toNat ∧ s' = s) ∨ (s.shows = .nothing ∧ s' = ⟨.number t.toNat, []⟩ ∧ c.count = t)) := by
  have hro : ∀ {w1}, ReadOnly P w w1 → ShowsStamp pw P w1 s := fun hr => h.same (by rw [hr.fs]) (by rw [hr.pend])
  have hno : w.fs P = none → s.shows = .nothing := fun hn => by rw [← h.shows]; exact reading_nothing.2 hn
  have hwr : ∀ {w1 o'}, ReadOnly P w w1 → w.fs P = none → WroteAtomic P (beBytes 16 t.toNat) none o' w1 w' → ∃ s', ShowsStamp pw P w' s' ∧ datagrams w'.log = datagrams w.log ∧
      (∀ x ∈ s'.all, x ∈ s.all ∨ (s.shows = .nothing ∧ x = .number t.toNat)) ∧ (o' = .ok () → s' = ⟨.number t.toNat, []⟩) := by
    intro w1 o' hr hn hw
    obtain ⟨s', a1, a2, a3⟩ := (hro hr).wrote hw hs
    refine ⟨s', a1, by rw [datagrams_wrote hw, datagrams_readOnly hr], fun x hx => ?_, a3⟩
    rcases a2 x hx with h | h
    · exact .inl h
    · exact .inr ⟨hno hn, h⟩
  cases hi with
  | found c w' hr hd =>
    refine ⟨s, hro hr, datagrams_readOnly hr, fun x hx => .inl hx, ?_⟩
    intro c' hc
    cases hc
    exact ⟨rfl, .inl ⟨by rw [← h.shows]; exact reading_counterOnDisk.1 hd, rfl⟩⟩
  | seeded w1 w' hr habs hw =>
    obtain ⟨s', a1, a2, a3, a4⟩ := hwr hr habs hw
    refine ⟨s', a1, a2, a3, ?_⟩
    intro c hc
    cases hc
    exact ⟨rfl, .inr ⟨hno habs, a4 rfl, rfl⟩⟩
  | seedFailed e w1 w' hr habs hw =>
    obtain ⟨s', a1, a2, a3, _⟩ := hwr hr habs hw
    exact ⟨s', a1, a2, a3, nofun⟩
  | seedCrashed w1 w' hr habs hw =>
    obtain ⟨s', a1, a2, a3, _⟩ := hwr hr habs hw
    exact ⟨s', a1, a2, a3, nofun⟩
  | refused e w' hr he => exact ⟨s, hro hr, datagrams_readOnly hr, fun x hx => .inl hx, nofun⟩
  | crashed w' hr => exact ⟨s, hro hr, datagrams_readOnly hr, fun x hx => .inl hx, nofun⟩

/-- What making the sender does to the stamp. -/
theorem stamp_create (dir : Path) (cmd : SendCmd) (senv : SendEnv) (pw : Bool) (s : Stamp) (w : World) (h : ShowsStamp pw (counterPath dir) w s) :
    wp (Sender.create dir cmd senv) w (fun o w' => (∃ l, w'.log = w.log ++ l) ∧ (SyncedAt pw (counterPath dir) w'.log → ∃ s', ShowsStamp pw (counterPath dir) w' s' ∧ datagrams w'.log = datagrams w.log ∧
      (∀ x ∈ s'.all, x ∈ s.all ∨ (s.shows = .nothing ∧ ∃ t, some t ∈ w.clock ∧ x = .number t.toNat)) ∧
      ∀ sd, o = .ok sd → ∃ full key text, ensurePort cmd.address DEFAULT_PORT = .ok full ∧ sd.cmd = { cmd with address := full } ∧ parseIpOption cmd.ip = .ok sd.srcIp ∧ senv.keyText = some text ∧
        CryptoHandler.create (trim text) = .ok key ∧ sd.handler = key ∧ sd.counter.path = counterPath dir ∧
        ((s.shows = .number sd.counter.count.toNat ∧ s' = s) ∨ (s.shows = .nothing ∧ s' = ⟨.number sd.counter.count.toNat, []⟩ ∧ w.clock.head? = some (some sd.counter.count))))) := by
  have still : ∀ {α} (o : Out α), (∀ x, o ≠ .ok x) → ∀ (Q : α → Stamp → Prop), (∃ l, w.log = w.log ++ l) ∧ (SyncedAt pw (counterPath dir) w.log → ∃ s', ShowsStamp pw (counterPath dir) w s' ∧ datagrams w.log = datagrams w.log ∧
      (∀ x ∈ s'.all, x ∈ s.all ∨ (s.shows = .nothing ∧ ∃ t, some t ∈ w.clock ∧ x = .number t.toNat)) ∧ ∀ sd, o = .ok sd → Q sd s') := by
    intro α o hne Q
    exact ⟨⟨[], by simp⟩, fun _ => ⟨s, h, rfl, fun x hx => .inl hx, fun sd ho => absurd ho (hne sd)⟩⟩
  unfold Sender.create
  rw [wp_bind, wp_ofExcept]
  cases ha : ensurePort cmd.address DEFAULT_PORT with
  | error e => exact still _ nofun _
  | ok full =>
    simp only
    rw [wp_bind, wp_ofExcept]
    cases hip : parseIpOption cmd.ip with
    | error e => exact still _ nofun _
    | ok src =>
      simp only
      cases hkt : senv.keyText with
      | none => exact still _ nofun _
      | some text =>
        simp only
        rw [wp_bind, wp_ofExcept]
        cases hk : CryptoHandler.create (trim text) with
        | error e => exact still _ nofun _
        | ok key =>
          simp only
          rw [wp_bind]
          apply wp_nowNanos
          · intro t c hc
            simp only
            rw [wp_bind]
            have ht : some t ∈ w.clock := by rw [hc]; exact List.mem_cons_self ..
            refine wp_mono (Counter.createAndInit_spec (counterPath dir) t { w with clock := c }) ?_
            intro o w1 hi
            have hgrow := init_log hi
            have hst := fun hs => stamp_init (pw := pw) (s := s) (h.same (w' := { w with clock := c }) rfl rfl) hi hs
            have hall : ∀ {s' : Stamp}, (∀ x ∈ s'.all, x ∈ s.all ∨ (s.shows = .nothing ∧ x = .number t.toNat)) →
                ∀ x ∈ s'.all, x ∈ s.all ∨ (s.shows = .nothing ∧ ∃ t, some t ∈ w.clock ∧ x = .number t.toNat) := by
              intro s' h x hx
              rcases h x hx with h | ⟨h, h'⟩
              · exact .inl h
              · exact .inr ⟨h, t, ht, h'⟩
            cases o with
            | crash =>
              refine ⟨hgrow, fun hs => ?_⟩
              obtain ⟨s', a1, a2, a3, _⟩ := hst hs
              exact ⟨s', a1, a2, hall a3, nofun⟩
            | err e =>
              refine ⟨hgrow, fun hs => ?_⟩
              obtain ⟨s', a1, a2, a3, _⟩ := hst hs
              exact ⟨s', a1, a2, hall a3, nofun⟩
            | ok ctr =>
              refine ⟨hgrow, fun hs => ?_⟩
              obtain ⟨s', a1, a2, a3, a4⟩ := hst hs
              refine ⟨s', a1, a2, hall a3, ?_⟩
              intro sd hsd
              cases hsd
              obtain ⟨b1, b2⟩ := a4 ctr rfl
              refine ⟨full, key, text, rfl, rfl, rfl, rfl, hk, rfl, b1, ?_⟩
              rcases b2 with b | ⟨b, b', b''⟩
              · exact .inl b
              · subst b''
                exact .inr ⟨b, b', by rw [hc]; rfl⟩
          · intro c
            refine ⟨⟨[], by simp⟩, fun hs => ⟨s, h.same rfl rfl, rfl, fun x hx => .inl hx, nofun⟩⟩

/-! ## A send -/

theorem works_of {env : Env} {w : World} (h : ¬ ClientTrouble env) (ho : w.oracle = env.oracle) (hc : w.clock = env.clock) : Works 4 w := by
  refine ⟨fun c hm => ?_, fun t ht hn => ?_, ?_⟩
  · rw [ho] at hm
    exact Classical.byContradiction fun hne => h (.inl ⟨c, hm, hne⟩)
  · subst hn
    rw [hc] at ht
    exact h (.inr (.inl ht))
  · rw [hc]
    exact Classical.byContradiction fun hlt => h (.inr (.inr (by omega)))

/-- Making the sender succeeds if nothing goes wrong. -/
theorem senderCreate_ok (dir : Path) (cmd : SendCmd) (senv : SendEnv) (w : World) (l : Letter) (hm : Means cmd senv l) (hw : Works 4 w) (hr : reading (w.fs (counterPath dir)) ≠ .illegible) :
    wp (Sender.create dir cmd senv) w (fun o _ => ∃ sd, o = .ok sd) := by
  obtain ⟨full, ha, hd⟩ := hm.host
  obtain ⟨text, hkt, hk⟩ := hm.key
  unfold Sender.create
  rw [wp_bind, wp_ofExcept, ha]
  simp only
  rw [wp_bind, wp_ofExcept, hm.claimed]
  simp only [hkt]
  rw [wp_bind, wp_ofExcept, hk]
  simp only
  rw [wp_bind]
  obtain ⟨t, cl, h1, h2, h3⟩ := Works.reading (n := 3) hw
  rw [wp_nowNanos_some w t cl h1]
  simp only
  rw [wp_bind]
  have fin : ∀ c : U128, (counterOnDisk { w with clock := cl } (counterPath dir) = some c.toNat ∨ (w.fs (counterPath dir) = none ∧ c = t)) →
      wp (Counter.createAndInit (counterPath dir) t) { w with clock := cl } (fun o _ => ∃ ctr, o = .ok ctr) := by
    intro c hc
    refine wp_mono (createAndInit_ok (counterPath dir) t c 2 _ ⟨hw.ok, h2, h3⟩ hc) ?_
    rintro o w2 ⟨rfl, _⟩
    exact ⟨_, rfl⟩
  have : wp (Counter.createAndInit (counterPath dir) t) { w with clock := cl } (fun o _ => ∃ ctr, o = .ok ctr) := by
    cases hf : w.fs (counterPath dir) with
    | none => exact fin t (.inr ⟨hf, rfl⟩)
    | some f =>
      rw [hf] at hr
      unfold reading at hr
      simp only at hr
      by_cases hl : 16 ≤ f.data.length
      · have hb : ofBE (f.data.take 16) < 2 ^ 128 := by
          have := ofBE_lt (f.data.take 16)
          rw [List.length_take, Nat.min_eq_left hl] at this
          exact this
        refine fin (BitVec.ofNat 128 (ofBE (f.data.take 16))) (.inl ?_)
        unfold counterOnDisk
        simp only [hf]
        rw [if_pos hl, BitVec.toNat_ofNat, Nat.mod_eq_of_lt hb]
      · rw [if_neg hl] at hr
        exact absurd rfl hr
  refine wp_mono this ?_
  rintro o w2 ⟨ctr, rfl⟩
  exact ⟨_, rfl⟩

/-- The cases of a send. -/
def SendStep (A : Aead) (hash : List Char → U64) (held : Bool) (cmd : SendCmd) (senv : SendEnv) (env : Env) (s : Stamp) (out : Spec.Sent) (s' : Stamp) : Prop :=
  (out = [] ∧ (held = true ∨ (¬ ∃ l, Means cmd senv l) ∨ s.shows = .illegible ∨ ClientTrouble env) ∧ (∀ x ∈ s'.all, x ∈ s.all ∨ (s.shows = .nothing ∧ ∃ t, some t ∈ env.clock ∧ x = .number t.toNat))) ∨
  (held = false ∧ ∃ l s1 n, Means cmd senv l ∧ ((s.shows = .number n ∧ s1 = s) ∨ (s.shows = .nothing ∧ s1 = ⟨.number n, []⟩ ∧ ∃ t : U128, env.clock.head? = some (some t) ∧ n = t.toNat)) ∧
    n < 2 ^ 128 ∧ Stamps A l.key (asks hash cmd l) s1 n l.dsts out s')

/-- A send is a step of the stamp. -/
theorem stamp_send {A : Aead} (hA : A.Correct) (hash : List Char → U64) (dir : Path) (held : Bool) (cmd : SendCmd) (senv : SendEnv) (env : Env) (pw : Bool) (s : Stamp) (w : World)
    (ho : w.oracle = env.oracle) (hc : w.clock = env.clock) (h : ShowsStamp pw (counterPath dir) w s) :
    wp (runSend A hash dir held cmd senv) w (fun _ w' => (∃ l, w'.log = w.log ++ l) ∧ (SyncedAt pw (counterPath dir) w'.log → ∃ s' out, ShowsStamp pw (counterPath dir) w' s' ∧
      datagrams w'.log = datagrams w.log ++ out ∧ StampStep A hash s (.send env held cmd senv) out s')) := by
  -- that everything is sent, taken from elsewhere
  have hfull : ∀ (l : Letter) (c : U128), held = false → Means cmd senv l → (s.shows = .number c.toNat ∨ (s.shows = .nothing ∧ env.clock.head? = some (some c))) → ¬ ClientTrouble env → ¬ NoRandom senv →
      c.toNat + l.dsts.length < 2 ^ 128 → wp (runSend A hash dir held cmd senv) w (fun _ w' => ∃ x, datagrams w'.log = datagrams w.log ++ x ∧ x.length = l.dsts.length) := by
    intro l c hh hm hcnt ht hr hroom
    subst hh
    obtain ⟨full, h1, h2⟩ := hm.host
    obtain ⟨_, _, _, hlen, _⟩ := C35_bounds _ _ _ _ h2
    refine wp_mono (runSend_ok hA hash dir cmd senv w l.key l.claimed l.dsts c ⟨(works_of ht ho hc).weaken (by omega), hm.host, hm.claimed, hm.key, ?_, ?_, hroom⟩) ?_
    · intro i
      refine Classical.byContradiction fun hne => hr ⟨i, fun iv hiv hl => hne ⟨iv, hiv, hl⟩⟩
    · rcases hcnt with hcnt | ⟨hcnt, hclk⟩
      · exact .inl (reading_counterOnDisk.2 (h.shows.trans hcnt))
      · exact .inr ⟨reading_nothing.1 (h.shows.trans hcnt), by rw [hc]; exact hclk⟩
    · rintro o w' ⟨_, _, x, hx, hxl, _⟩
      exact ⟨x, hx, hxl⟩
  have hsplit : wp (runSend A hash dir held cmd senv) w (fun _ w' => (∃ l, w'.log = w.log ++ l) ∧ (SyncedAt pw (counterPath dir) w'.log → ∃ s' out, ShowsStamp pw (counterPath dir) w' s' ∧ datagrams w'.log = datagrams w.log ++ out ∧ SendStep A hash held cmd senv env s out s')) := by
    unfold runSend
    rw [wp_bind]
    have hlock := lock_quiet (dir ++ "/client.lock".toList) (counterPath dir) (counterPath_ne_lock dir) held w
    have hlockok : held = false → ¬ ClientTrouble env → wp (acquireLock (dir ++ "/client.lock".toList) held) w (fun o w' => o = .ok () ∧ Works 4 w') := by
      intro hh ht
      subst hh
      refine wp_mono (acquireLock_ok _ 4 w (works_of ht ho hc) (counterPath dir) (counterPath_ne_lock dir)) ?_
      rintro o w1 ⟨a, b, _⟩
      exact ⟨a, b⟩
    have hboth : wp (acquireLock (dir ++ "/client.lock".toList) held) w (fun o w' => (w'.fs (counterPath dir) = w.fs (counterPath dir) ∧ w'.pend (counterPath dir) = w.pend (counterPath dir) ∧
        w'.clock = w.clock ∧ datagrams w'.log = datagrams w.log ∧ (∃ l, w'.log = w.log ++ l) ∧ (o = .ok () → held = false)) ∧ (held = false → ¬ ClientTrouble env → o = .ok () ∧ Works 4 w')) :=
      wp_and hlock (fun a b => hlockok a b)
    refine wp_mono hboth ?_
    rintro o w1 ⟨⟨hf1, hp1, hc1, hd1, ⟨l1, hl1⟩, hheld⟩, hok1⟩
    have h1 : ShowsStamp pw (counterPath dir) w1 s := h.same hf1 hp1
    have failed : o ≠ .ok () → (held = true ∨ (¬ ∃ l, Means cmd senv l) ∨ s.shows = .illegible ∨ ClientTrouble env) := by
      intro hne
      refine Classical.byContradiction fun hn => hne (hok1 ?_ fun ht => hn (.inr (.inr (.inr ht)))).1
      cases held with
      | false => rfl
      | true => exact absurd (.inl rfl) hn
    have out1 : o ≠ .ok () → (∃ l, w1.log = w.log ++ l) ∧ (SyncedAt pw (counterPath dir) w1.log → ∃ s' out, ShowsStamp pw (counterPath dir) w1 s' ∧ datagrams w1.log = datagrams w.log ++ out ∧ SendStep A hash held cmd senv env s out s') :=
      fun hne => ⟨⟨l1, hl1⟩, fun _ => ⟨s, [], h1, by rw [hd1, List.append_nil], .inl ⟨rfl, failed hne, fun x hx => .inl hx⟩⟩⟩
    cases o with
    | err e => exact out1 nofun
    | crash => exact out1 nofun
    | ok u =>
      clear out1 failed
      have hheld' := hheld rfl
      simp only
      rw [wp_bind]
      have hcr : wp (Sender.create dir cmd senv) w1 _ := wp_and (stamp_create dir cmd senv pw s w1 h1)
        (show wp (Sender.create dir cmd senv) w1 (fun o _ => ∀ l, Means cmd senv l → ¬ ClientTrouble env → s.shows ≠ .illegible → ∃ sd, o = .ok sd) from
          fun l hm ht hr => senderCreate_ok dir cmd senv w1 l hm (hok1 hheld' ht).2 (by rw [h1.shows]; exact hr))
      refine wp_mono hcr ?_
      rintro o w2 ⟨⟨⟨l2, hl2⟩, hst⟩, hok2⟩
      have hgrow2 : ∃ l, w2.log = w.log ++ l := ⟨l1 ++ l2, by rw [hl2, hl1, List.append_assoc]⟩
      rw [hc1, hc] at hst
      have out2 : (∀ sd, o ≠ .ok sd) → (∃ l, w2.log = w.log ++ l) ∧ (SyncedAt pw (counterPath dir) w2.log → ∃ s' out, ShowsStamp pw (counterPath dir) w2 s' ∧ datagrams w2.log = datagrams w.log ++ out ∧ SendStep A hash held cmd senv env s out s') := by
        intro hne
        refine ⟨hgrow2, fun hs => ?_⟩
        obtain ⟨s', a1, a2, a3, _⟩ := hst hs
        refine ⟨s', [], a1, by rw [a2, hd1, List.append_nil], .inl ⟨rfl, ?_, a3⟩⟩
        refine Classical.byContradiction fun hn => ?_
        have hm : ∃ l, Means cmd senv l := Classical.byContradiction fun hm => hn (.inr (.inl hm))
        obtain ⟨l, hm⟩ := hm
        obtain ⟨sd, hsd⟩ := hok2 l hm (fun ht => hn (.inr (.inr (.inr ht)))) (fun hi => hn (.inr (.inr (.inl hi))))
        exact hne sd hsd
      cases o with
      | err e => exact out2 nofun
      | crash => exact out2 nofun
      | ok sd =>
        clear out2
        simp only
        unfold Sender.send
        rw [wp_bind, wp_ofExcept]
        cases hdst : getDestinationIps sd.cmd.ipv4 sd.cmd.ipv6 (senv.resolve sd.cmd.address) with
        | error e =>
          refine ⟨hgrow2, fun hs => ?_⟩
          obtain ⟨s', a1, a2, a3, a4⟩ := hst hs
          obtain ⟨full, key, text, b1, b2, b3, b4, b5, b6, b7, b8⟩ := a4 sd rfl
          refine ⟨s', [], a1, by rw [a2, hd1, List.append_nil], .inl ⟨rfl, .inr (.inl ?_), a3⟩⟩
          rintro ⟨l, hm⟩
          obtain ⟨full', c1, c2⟩ := hm.host
          rw [b1] at c1
          cases c1
          rw [b2] at hdst
          simp only at hdst
          rw [hdst] at c2
          cases c2
        | ok dsts =>
          simp only
          unfold Sender.sendToDestinations
          rw [wp_bind]
          have hgrow3 := sendLoop_grows A hash senv.rnd sd 0 dsts w2
          by_cases hs2 : SyncedAt pw (counterPath dir) w2.log
          · obtain ⟨s1, a1, a2, a3, a4⟩ := hst hs2
            obtain ⟨full, key, text, b1, b2, b3, b4, b5, b6, b7, b8⟩ := a4 sd rfl
            have hm : Means cmd senv ⟨key, sd.srcIp, dsts⟩ := ⟨⟨full, b1, by rw [b2] at hdst; exact hdst⟩, b3, text, b4, b5⟩
            have hask : ∀ ip n, asks hash cmd ⟨key, sd.srcIp, dsts⟩ ip n = { cmdHash := hash sd.cmd.command, counter := BitVec.ofNat 128 n, strict := !sd.cmd.permissive, srcIp := sd.srcIp, dstIp := ip } := by
              intro ip n
              rw [b2]
              rfl
            have hloop := wp_and (stamp_loop A hash senv.rnd pw (counterPath dir) key _ dsts sd hask b6 b7 0 w2 s1 a1) hgrow3
            refine wp_mono hloop ?_
            rintro o w3 ⟨k, l3, hl3⟩
            have done : (∃ l, w3.log = w.log ++ l) ∧ (SyncedAt pw (counterPath dir) w3.log → ∃ s' out, ShowsStamp pw (counterPath dir) w3 s' ∧ datagrams w3.log = datagrams w.log ++ out ∧ SendStep A hash held cmd senv env s out s') := by
              obtain ⟨l, hl⟩ := hgrow2
              refine ⟨⟨l ++ l3, by rw [hl3, hl, List.append_assoc]⟩, fun hs => ?_⟩
              obtain ⟨s', out, k1, k2, k3⟩ := k hs
              refine ⟨s', out, k1, by rw [k2, a2, hd1], .inr ⟨hheld', ⟨key, sd.srcIp, dsts⟩, s1, sd.counter.count.toNat, hm, ?_, sd.counter.count.isLt, k3⟩⟩
              rcases b8 with b8 | ⟨b8, b9, b10⟩
              · exact .inl b8
              · exact .inr ⟨b8, b9, _, b10, rfl⟩
            cases o with
            | err e => exact done
            | crash => exact done
            | ok x =>
              simp only
              split <;> exact done
          · refine wp_mono hgrow3 ?_
            rintro o w3 ⟨l3, hl3⟩
            have done : ∀ Q : Prop, (∃ l, w3.log = w.log ++ l) ∧ (SyncedAt pw (counterPath dir) w3.log → Q) := by
              obtain ⟨l, hl⟩ := hgrow2
              refine fun Q => ⟨⟨l ++ l3, by rw [hl3, hl, List.append_assoc]⟩, fun hs => ?_⟩
              rw [hl3] at hs
              exact absurd hs.mono hs2
            cases o with
            | err e => exact done _
            | crash => exact done _
            | ok x =>
              simp only
              split <;> exact done _
  have hall : wp (runSend A hash dir held cmd senv) w (fun _ w' => ∀ (l : Letter) (c : U128), held = false → Means cmd senv l →
      (s.shows = .number c.toNat ∨ (s.shows = .nothing ∧ env.clock.head? = some (some c))) → ¬ ClientTrouble env → ¬ NoRandom senv → c.toNat + l.dsts.length < 2 ^ 128 →
      ∃ x, datagrams w'.log = datagrams w.log ++ x ∧ x.length = l.dsts.length) := fun l c a1 a2 a3 a4 a5 a6 => hfull l c a1 a2 a3 a4 a5 a6
  refine wp_mono (wp_and hsplit hall) ?_
  rintro o w' ⟨⟨hgrow, hres⟩, hx⟩
  refine ⟨hgrow, fun hs => ?_⟩
  obtain ⟨s', out, k1, k2, k3⟩ := hres hs
  refine ⟨s', out, k1, k2, ?_⟩
  rcases k3 with ⟨rfl, why, hall⟩ | ⟨rfl, l, s1, n, hm, hn, hlt, hst⟩
  · exact .unsent _ _ _ _ _ _ why hall
  · refine .sends _ s1 _ _ _ _ l n _ hm hn hst ?_
    intro ht hr hroom
    have hto : (BitVec.ofNat 128 n).toNat = n := by rw [BitVec.toNat_ofNat, Nat.mod_eq_of_lt hlt]
    obtain ⟨x, hx1, hx2⟩ := hx l (BitVec.ofNat 128 n) rfl hm (by
      rcases hn with ⟨hn, _⟩ | ⟨hn, _, t, ht, rfl⟩
      · exact .inl (by rw [hto]; exact hn)
      · exact .inr ⟨hn, by rw [ht]; simp⟩) ht hr (by rw [hto]; exact hroom)
    rw [k2] at hx1
    rw [List.append_cancel_left hx1]
    exact hx2

/-! ## The other events -/

/-- A reseed is a step of the stamp. -/
theorem stamp_reseed (A : Aead) (hash : List Char → U64) (dir : Path) (held : Bool) (env : Env) (pw : Bool) (s : Stamp) (w : World)
    (ho : w.oracle = env.oracle) (hc : w.clock = env.clock) (h : ShowsStamp pw (counterPath dir) w s) :
    wp (runReseed dir held) w (fun _ w' => (∃ l, w'.log = w.log ++ l) ∧ (SyncedAt pw (counterPath dir) w'.log → ∃ s', ShowsStamp pw (counterPath dir) w' s' ∧
      datagrams w'.log = datagrams w.log ∧ StampStep A hash s (.reseed env held) [] s')) := by
  -- that it succeeds
  have hfull : wp (runReseed dir held) w (fun o _ => held = false → ¬ ClientTrouble env → o = .ok ()) := by
    intro hh ht
    subst hh
    show wp (runReseed dir false) w (fun o _ => o = .ok ())
    unfold runReseed
    rw [wp_bind]
    refine wp_mono (acquireLock_ok _ 4 w (works_of ht ho hc) (counterPath dir) (counterPath_ne_lock dir)) ?_
    rintro o w1 ⟨rfl, hw1, _⟩
    simp only
    obtain ⟨t, cl, h1, h2, h3⟩ := Works.reading (n := 3) hw1
    rw [wp_bind, wp_nowNanos_some w1 t cl h1]
    simp only
    unfold Counter.reseed
    refine wp_mono (counterWrite_ok _ 2 _ ⟨hw1.ok, h2, h3⟩) ?_
    rintro o w2 ⟨rfl, _⟩
    rfl
  have hsplit : wp (runReseed dir held) w (fun o w' => (∃ l, w'.log = w.log ++ l) ∧ (SyncedAt pw (counterPath dir) w'.log → ∃ s', ShowsStamp pw (counterPath dir) w' s' ∧
      datagrams w'.log = datagrams w.log ∧ (∀ x ∈ s'.all, x ∈ s.all ∨ ∃ t, some t ∈ env.clock ∧ x = .number t.toNat) ∧
      (o = .ok () → held = false ∧ ∃ t : U128, env.clock.head? = some (some t) ∧ s' = ⟨.number t.toNat, []⟩))) := by
    unfold runReseed
    rw [wp_bind]
    refine wp_mono (lock_quiet (dir ++ "/client.lock".toList) (counterPath dir) (counterPath_ne_lock dir) held w) ?_
    rintro o w1 ⟨hf1, hp1, hc1, hd1, ⟨l1, hl1⟩, hheld⟩
    have h1 : ShowsStamp pw (counterPath dir) w1 s := h.same hf1 hp1
    cases o with
    | err e => exact ⟨⟨l1, hl1⟩, fun _ => ⟨s, h1, hd1, fun x hx => .inl hx, nofun⟩⟩
    | crash => exact ⟨⟨l1, hl1⟩, fun _ => ⟨s, h1, hd1, fun x hx => .inl hx, nofun⟩⟩
    | ok u =>
      simp only
      rw [wp_bind]
      apply wp_nowNanos
      · intro t c hcl
        simp only
        unfold Counter.reseed
        refine wp_mono (Counter.write_spec ⟨counterPath dir, t⟩ { w1 with clock := c }) ?_
        intro o w2 hw
        obtain ⟨l2, hl2, _⟩ := hw.log
        refine ⟨⟨l1 ++ l2, by rw [hl2, ← List.append_assoc, ← hl1]⟩, fun hs => ?_⟩
        obtain ⟨s', a1, a2, a3⟩ := (h1.same (w' := { w1 with clock := c }) rfl rfl).wrote hw hs
        rw [hc1, hc] at hcl
        refine ⟨s', a1, by rw [datagrams_wrote hw, ← hd1], fun x hx => ?_, fun ho' => ⟨hheld rfl, t, by rw [hcl]; rfl, a3 ho'⟩⟩
        rcases a2 x hx with h | h
        · exact .inl h
        · exact .inr ⟨t, by rw [hcl]; exact List.mem_cons_self .., h⟩
      · intro c
        exact ⟨⟨l1, hl1⟩, fun _ => ⟨s, h1.same rfl rfl, hd1, fun x hx => .inl hx, nofun⟩⟩
  refine wp_mono (wp_and hsplit hfull) ?_
  rintro o w' ⟨⟨hgrow, hres⟩, hok⟩
  refine ⟨hgrow, fun hs => ?_⟩
  obtain ⟨s', a1, a2, a3, a4⟩ := hres hs
  refine ⟨s', a1, a2, ?_⟩
  by_cases ho' : o = .ok ()
  · obtain ⟨rfl, t, ht, rfl⟩ := a4 ho'
    exact .set s env t ht
  · refine .notSet s s' env held ?_ a3
    refine Classical.byContradiction fun hn => ho' (hok ?_ fun ht => hn (.inr ht))
    cases held with
    | false => rfl
    | true => exact absurd (.inl rfl) hn

/-- A power loss turns the stamp back to one of the values it may be turned back to. -/
theorem stamp_power {P : Path} {w w' : World} {s : Stamp} (h : ShowsStamp true P w s) (hp : PowerLoss w w') : ∃ x ∈ s.all, ShowsStamp true P w' ⟨x, []⟩ := by
  obtain ⟨g, hg, hsv⟩ := hp.entries P
  have hgr : reading g ∈ s.all := by
    rcases List.mem_cons.1 hg with rfl | hg
    · rw [h.shows]; exact List.mem_cons_self ..
    · exact List.mem_cons_of_mem _ (h.back rfl g hg)
  have hsyn := h.synced rfl g hg
  refine ⟨_, hgr, ?_, fun _ f hf => ?_, fun _ f hf => ?_⟩
  · generalize w'.fs P = y at hsv
    cases hsv with
    | absent => rfl
    | synced f hs => rfl
    | unsynced f g hs => rw [hsyn f rfl] at hs; cases hs
  · rw [hp.nothingPending] at hf
    cases hf
  · rw [hp.nothingPending] at hf
    rcases List.mem_cons.1 hf with rfl | hf
    · generalize w'.fs P = y at hsv
      intro file hfile
      subst hfile
      cases hsv with
      | synced f hs => exact hs
      | unsynced f g hs => rw [hsyn f rfl] at hs; cases hs
    · cases hf

/-- Every event on the client's machine is a step of the stamp. -/
theorem stamp_step {A : Aead} (hA : A.Correct) {hash : List Char → U64} {dir : Path} {pw : Bool} {w w' : World} {e : CEv} {s : Stamp} (hst : CStep A hash dir w e w')
    (hpw : e = .power → pw = true) (h : ShowsStamp pw (counterPath dir) w s) :
    SyncedAt pw (counterPath dir) w'.log → ∃ s' out, ShowsStamp pw (counterPath dir) w' s' ∧ datagrams w'.log = datagrams w.log ++ out ∧ StampStep A hash s e out s' := by
  cases hst with
  | send env held cmd senv o _ hr =>
    have := stamp_send hA hash dir held cmd senv env pw s (w.withEnv env []) rfl rfl (h.same rfl rfl)
    unfold wp at this
    rw [hr] at this
    exact this.2
  | reseed env held o _ hr =>
    have := stamp_reseed A hash dir held env pw s (w.withEnv env []) rfl rfl (h.same rfl rfl)
    unfold wp at this
    rw [hr] at this
    intro hs
    obtain ⟨s', a1, a2, a3⟩ := this.2 hs
    exact ⟨s', [], a1, by rw [List.append_nil]; exact a2, a3⟩
  | power _ hp =>
    have := hpw rfl
    subst this
    intro _
    obtain ⟨x, hx, hx'⟩ := stamp_power h hp
    exact ⟨_, [], hx', by rw [hp.log, List.append_nil], .power s x hx⟩
  | others _ hfs hpend hlog => exact fun _ => ⟨s, [], h.same hfs hpend, by rw [hlog, List.append_nil], .others s⟩

theorem cstep_grows {A : Aead} {hash : List Char → U64} {dir : Path} {w w' : World} {e : CEv} (hA : A.Correct) (hst : CStep A hash dir w e w') : ∃ l, w'.log = w.log ++ l := by
  have h0 : ∀ env, ShowsStamp false (counterPath dir) (w.withEnv env []) ⟨reading (w.fs (counterPath dir)), []⟩ := fun env => ⟨rfl, nofun, nofun⟩
  cases hst with
  | send env held cmd senv o _ hr =>
    have := stamp_send hA hash dir held cmd senv env false _ (w.withEnv env []) rfl rfl (h0 env)
    unfold wp at this
    rw [hr] at this
    exact this.1
  | reseed env held o _ hr =>
    have := stamp_reseed A hash dir held env false _ (w.withEnv env []) rfl rfl (h0 env)
    unfold wp at this
    rw [hr] at this
    exact this.1
  | power _ hp => exact ⟨[], by rw [hp.log, List.append_nil]⟩
  | others _ hfs hpend hlog => exact ⟨[], by rw [hlog, List.append_nil]⟩

/-- **C109** (every history of a client is one of a numbering stamp): the datagrams that leave the machine are the ones the stamp makes, and the counter file says what the stamp shows. Excluded are,
if power is lost, histories in which the directory cannot be synced or in which the counter file found at the beginning was not yet durable. -/
theorem C109_client_is_a_stamp {A : Aead} (hA : A.Correct) {hash : List Char → U64} {dir : Path} {w w' : World} {evs : List CEv} (h : CRun A hash dir w evs w')
    (hsync : .power ∈ evs → .dirSyncFailed (counterPath dir) ∉ w'.log) (hdur : .power ∈ evs → Durable w (counterPath dir)) :
    ∃ s out, StampRun A hash ⟨reading (w.fs (counterPath dir)), []⟩ evs out s ∧ datagrams w'.log = datagrams w.log ++ out ∧ reading (w'.fs (counterPath dir)) = s.shows := by
  classical
  have key : ∀ pw : Bool, (.power ∈ evs → pw = true) → SyncedAt pw (counterPath dir) w'.log → (pw = true → Durable w (counterPath dir)) →
      ∃ s out, StampRun A hash ⟨reading (w.fs (counterPath dir)), []⟩ evs out s ∧ datagrams w'.log = datagrams w.log ++ out ∧ ShowsStamp pw (counterPath dir) w' s := by
    intro pw
    clear hsync hdur
    induction h with
    | nil =>
      intro _ _ hd
      refine ⟨_, [], .nil _, by simp, rfl, fun hp f hf => ?_, fun hp f hf file hfile => ?_⟩
      · rw [(hd hp).1] at hf
        cases hf
      · rw [(hd hp).1] at hf
        cases List.mem_singleton.1 hf
        exact (hd hp).2 file hfile
    | snoc hr hst ih =>
      intro hpw hs hd
      obtain ⟨l, hl⟩ := cstep_grows hA hst
      have hs' := hs
      rw [hl] at hs'
      obtain ⟨s, out, h1, h2, h3⟩ := ih (fun hm => hpw (List.mem_append_left _ hm)) hs'.mono hd
      obtain ⟨s', out', k1, k2, k3⟩ := stamp_step hA hst (fun he => hpw (by simp [he])) h3 hs
      exact ⟨s', out ++ out', .snoc h1 k3, by rw [k2, h2, List.append_assoc], k1⟩
  obtain ⟨s, out, h1, h2, h3⟩ := key (decide (CEv.power ∈ evs)) (by simp) (by intro hp; exact hsync (by simpa using hp)) (by intro hp; exact hdur (by simpa using hp))
  exact ⟨s, out, h1, h2, h3.shows⟩

/-! ## What the stamp guarantees

These speak about the stamp only; by `C109_client_is_a_stamp` they hold of the client. -/

/-- Everything the stamp shows or may be turned back to is at or above `c`. -/
def StampAtLeast (s : Stamp) (c : Nat) : Prop := ∀ x ∈ s.all, ∃ m, x = .number m ∧ c ≤ m

theorem stamps_bounds {A : Aead} {key : CryptoHandler} {ask : Ip → Nat → ClientData} {s s' : Stamp} {n : Nat} {dsts : List SockAddr} {out : Spec.Sent} (h : Stamps A key ask s n dsts out s') :
    (out.map (fun x => x.2.2.1.toNat)).Pairwise (· < ·) ∧ (∀ x ∈ out, n < x.2.2.1.toNat ∧ x.2.2.1.toNat ≤ n + dsts.length) ∧ (∀ x ∈ out, StampAtLeast s' x.2.2.1.toNat) ∧
      (∀ c ≤ n, StampAtLeast s c → StampAtLeast s' c) ∧ (∀ x ∈ s'.all, x ∈ s.all ∨ ∃ m, x = .number m ∧ n < m ∧ m ≤ n + dsts.length) ∧ out.length ≤ dsts.length := by
  induction h with
  | stop s n dsts => exact ⟨.nil, nofun, nofun, fun _ _ h => h, fun x hx => .inl hx, Nat.zero_le _⟩
  | full s s' n a dsts out hn h ih =>
    obtain ⟨i1, i2, i3, i4, i5, i6⟩ := ih
    refine ⟨i1, fun x hx => ⟨(i2 x hx).1, ?_⟩, i3, i4, fun x hx => ?_, Nat.le_succ_of_le i6⟩
    · rw [List.length_cons]; have := (i2 x hx).2; omega
    · rcases i5 x hx with h | ⟨m, h1, h2, h3⟩
      · exact .inl h
      · exact .inr ⟨m, h1, h2, by rw [List.length_cons]; omega⟩
  | wasted s s1 s' n a dsts out hn h1 h ih =>
    obtain ⟨i1, i2, i3, i4, i5, i6⟩ := ih
    refine ⟨i1, fun x hx => ?_, i3, fun c hc hat => i4 c (by omega) ?_, fun x hx => ?_, Nat.le_succ_of_le i6⟩
    · have := i2 x hx
      rw [List.length_cons]
      omega
    · intro x hx
      rcases h1 x hx with h | rfl
      · exact hat x h
      · exact ⟨_, rfl, by omega⟩
    · rcases i5 x hx with h | ⟨m, h2, h3, h4⟩
      · rcases h1 x h with h | rfl
        · exact .inl h
        · exact .inr ⟨_, rfl, by omega, by rw [List.length_cons]; omega⟩
      · exact .inr ⟨m, h2, by omega, by rw [List.length_cons]; omega⟩
  | sent s s' n a dsts out bytes hn hb h ih =>
    obtain ⟨i1, i2, i3, i4, i5, i6⟩ := ih
    have hto : (BitVec.ofNat 128 (n + 1)).toNat = n + 1 := by rw [BitVec.toNat_ofNat, Nat.mod_eq_of_lt hn]
    have hat : ∀ c ≤ n + 1, StampAtLeast s' c := by
      intro c hc
      refine i4 c hc ?_
      intro x hx
      cases List.mem_singleton.1 hx
      exact ⟨_, rfl, hc⟩
    refine ⟨?_, ?_, ?_, fun c hc _ => hat c (by omega), fun x hx => ?_, by simpa using i6⟩
    · rw [List.map_cons, List.pairwise_cons]
      refine ⟨fun b hb => ?_, i1⟩
      obtain ⟨x, hx, rfl⟩ := List.mem_map.1 hb
      show (BitVec.ofNat 128 (n + 1)).toNat < _
      rw [hto]
      exact (i2 x hx).1
    · intro x hx
      rw [List.length_cons]
      rcases List.mem_cons.1 hx with rfl | hx
      · show n < (BitVec.ofNat 128 (n + 1)).toNat ∧ (BitVec.ofNat 128 (n + 1)).toNat ≤ _
        rw [hto]
        omega
      · have := i2 x hx
        omega
    · intro x hx
      rcases List.mem_cons.1 hx with rfl | hx
      · exact hat _ (Nat.le_of_eq hto)
      · exact i3 x hx
    · rw [List.length_cons]
      rcases i5 x hx with h | ⟨m, h1, h2, h3⟩
      · cases List.mem_singleton.1 h
        exact .inr ⟨_, rfl, by omega, by omega⟩
      · exact .inr ⟨m, h1, by omega, by omega⟩

theorem stampStep_bounds {A : Aead} {hash : List Char → U64} {s s' : Stamp} {e : CEv} {out : Spec.Sent} (h : StampStep A hash s e out s') (hre : ∀ env held, e ≠ .reseed env held) :
    (out.map (fun x => x.2.2.1.toNat)).Pairwise (· < ·) ∧ (∀ x ∈ out, StampAtLeast s' x.2.2.1.toNat) ∧ ∀ c, StampAtLeast s c → StampAtLeast s' c ∧ ∀ x ∈ out, c < x.2.2.1.toNat := by
  cases h with
  | unsent s' env held cmd senv why h =>
    refine ⟨.nil, nofun, fun c hc => ⟨fun x hx => ?_, nofun⟩⟩
    rcases h x hx with h | ⟨h, _⟩
    · exact hc x h
    · obtain ⟨m, hm, _⟩ := hc _ (List.mem_cons_self ..)
      rw [h] at hm
      cases hm
  | sends s1 s' env cmd senv l n out hm hn h hall =>
    obtain ⟨i1, i2, i3, i4, _⟩ := stamps_bounds h
    refine ⟨i1, i3, fun c hc => ?_⟩
    obtain ⟨m, hm', hle⟩ := hc _ (List.mem_cons_self ..)
    rcases hn with ⟨hn, rfl⟩ | ⟨hn, _⟩
    · rw [hn] at hm'
      cases hm'
      exact ⟨i4 c hle hc, fun x hx => Nat.lt_of_le_of_lt hle (i2 x hx).1⟩
    · rw [hn] at hm'
      cases hm'
  | set env t ht => exact absurd rfl (hre _ _)
  | notSet s' env held why h => exact absurd rfl (hre _ _)
  | power x h =>
    refine ⟨.nil, nofun, fun c hc => ⟨fun y hy => ?_, nofun⟩⟩
    cases List.mem_singleton.1 hy
    exact hc _ h
  | others => exact ⟨.nil, nofun, fun c hc => ⟨hc, nofun⟩⟩

/-- **C109** (the numbers of a stamp that is never set anew rise strictly, through crashes and power losses, begin above what it showed, and the stamp never shows less than it did or than it used). -/
theorem C109_stamp_increasing {A : Aead} {hash : List Char → U64} {r : Reading} {evs : List CEv} {out : Spec.Sent} {s : Stamp} (h : StampRun A hash ⟨r, []⟩ evs out s)
    (hre : ∀ env held, .reseed env held ∉ evs) :
    out.Pairwise (fun x y => x.2.2.1.toNat < y.2.2.1.toNat) ∧ (∀ x ∈ out, ∃ m, s.shows = .number m ∧ x.2.2.1.toNat ≤ m) ∧
      ∀ n, r = .number n → (∀ x ∈ out, n < x.2.2.1.toNat) ∧ ∃ m, s.shows = .number m ∧ n ≤ m := by
  have key : out.Pairwise (fun x y => x.2.2.1.toNat < y.2.2.1.toNat) ∧ (∀ x ∈ out, StampAtLeast s x.2.2.1.toNat) ∧ ∀ n, r = .number n → (∀ x ∈ out, n < x.2.2.1.toNat) ∧ StampAtLeast s n := by
    generalize hs0 : (⟨r, []⟩ : Stamp) = s0 at h
    induction h with
    | nil =>
      subst hs0
      refine ⟨.nil, nofun, fun n hn => ⟨nofun, fun x hx => ?_⟩⟩
      cases List.mem_singleton.1 hx
      exact ⟨n, hn, Nat.le_refl _⟩
    | snoc hr hst ih =>
      obtain ⟨i1, i2, i3⟩ := ih (fun env held hm => hre env held (List.mem_append_left _ hm))
      obtain ⟨k1, k2, k3⟩ := stampStep_bounds hst (fun env held he => hre env held (by simp [he]))
      refine ⟨?_, ?_, ?_⟩
      · rw [List.pairwise_append]
        exact ⟨i1, List.pairwise_map.1 k1, fun x hx y hy => (k3 _ (i2 x hx)).2 y hy⟩
      · intro x hx
        rcases List.mem_append.1 hx with hx | hx
        · exact (k3 _ (i2 x hx)).1
        · exact k2 x hx
      · intro n hn
        obtain ⟨j1, j2⟩ := i3 n hn
        refine ⟨fun x hx => ?_, (k3 n j2).1⟩
        rcases List.mem_append.1 hx with hx | hx
        · exact j1 x hx
        · exact (k3 n j2).2 x hx
  obtain ⟨h1, h2, h3⟩ := key
  exact ⟨h1, fun x hx => h2 x hx _ (List.mem_cons_self ..), fun n hn => ⟨(h3 n hn).1, (h3 n hn).2 _ (List.mem_cons_self ..)⟩⟩

theorem means_unique {cmd : SendCmd} {senv : SendEnv} {l l' : Letter} (h : Means cmd senv l) (h' : Means cmd senv l') : l = l' := by
  obtain ⟨k, c, d⟩ := l
  obtain ⟨k', c', d'⟩ := l'
  obtain ⟨⟨f, a1, a2⟩, a3, t, a4, a5⟩ := h
  obtain ⟨⟨f', b1, b2⟩, b3, t', b4, b5⟩ := h'
  rw [a1] at b1
  cases b1
  simp only at a2 a3 a5 b2 b3 b5
  rw [a2] at b2
  rw [a3] at b3
  rw [a4] at b4
  cases b4
  rw [a5] at b5
  cases b2
  cases b3
  cases b5
  rfl

/-- **C109** (a send uses up at most two numbers): afterwards the stamp shows, and can be turned back to, only what it could before or one of the next two numbers; a stamp never used is first set to
the time. -/
theorem C109_stamp_no_leap {A : Aead} {hash : List Char → U64} {s s' : Stamp} {env : Env} {held : Bool} {cmd : SendCmd} {senv : SendEnv} {out : Spec.Sent}
    (h : StampStep A hash s (.send env held cmd senv) out s') :
    out.length ≤ 2 ∧ ∀ x ∈ s'.all, x ∈ s.all ∨ ∃ n m, (s.shows = .number n ∨ (s.shows = .nothing ∧ ∃ t : U128, some t ∈ env.clock ∧ n = t.toNat)) ∧ x = .number m ∧ n ≤ m ∧ m ≤ n + 2 := by
  cases h with
  | unsent s' env held cmd senv why h =>
    refine ⟨Nat.zero_le _, fun x hx => ?_⟩
    rcases h x hx with h | ⟨h, t, ht, rfl⟩
    · exact .inl h
    · exact .inr ⟨_, _, .inr ⟨h, t, ht, rfl⟩, rfl, by omega, by omega⟩
  | sends s1 s' env cmd senv l n out hm hn h hall =>
    obtain ⟨_, _, _, _, i5, i6⟩ := stamps_bounds h
    obtain ⟨full, _, h2⟩ := hm.host
    obtain ⟨_, _, _, hlen, _⟩ := C35_bounds _ _ _ _ h2
    refine ⟨by omega, fun x hx => ?_⟩
    have hn' : s.shows = .number n ∨ (s.shows = .nothing ∧ ∃ t : U128, some t ∈ env.clock ∧ n = t.toNat) := by
      rcases hn with ⟨hn, _⟩ | ⟨hn, _, t, ht, he⟩
      · exact .inl hn
      · exact .inr ⟨hn, t, List.mem_of_mem_head? ht, he⟩
    rcases i5 x hx with h | ⟨m, h1, h2, h3⟩
    · rcases hn with ⟨_, rfl⟩ | ⟨hn, rfl, _⟩
      · exact .inl h
      · cases List.mem_singleton.1 h
        exact .inr ⟨n, n, hn', rfl, by omega, by omega⟩
    · exact .inr ⟨n, m, hn', h1, by omega, by omega⟩

theorem stamps_all {A : Aead} {key : CryptoHandler} {ask : Ip → Nat → ClientData} {s s' : Stamp} {n : Nat} {dsts : List SockAddr} {out : Spec.Sent} (h : Stamps A key ask s n dsts out s')
    (hall : out.length = dsts.length) :
    (∀ i a, dsts[i]? = some a → ∃ b, out[i]? = some (a.ip, a.port, BitVec.ofNat 128 (n + 1 + i), b) ∧ IsPacket A key (ask a.ip (n + 1 + i)) b) ∧
      (dsts ≠ [] → s' = ⟨.number (n + dsts.length), []⟩) := by
  induction h with
  | stop s n dsts =>
    rw [List.length_nil] at hall
    have := List.length_eq_zero_iff.1 hall.symm
    subst this
    exact ⟨by simp, fun h => absurd rfl h⟩
  | full s s' n a dsts out hn h ih =>
    have := (stamps_bounds h).2.2.2.2.2
    rw [List.length_cons] at hall
    omega
  | wasted s s1 s' n a dsts out hn h1 h ih =>
    have := (stamps_bounds h).2.2.2.2.2
    rw [List.length_cons] at hall
    omega
  | sent s s' n a dsts out bytes hn hb h ih =>
    obtain ⟨i1, i2⟩ := ih (by simpa using hall)
    refine ⟨fun i x hx => ?_, fun _ => ?_⟩
    · cases i with
      | zero =>
        cases hx
        exact ⟨bytes, rfl, hb⟩
      | succ j =>
        obtain ⟨b, b1, b2⟩ := i1 j x (by simpa using hx)
        rw [show n + 1 + (j + 1) = n + 1 + 1 + j by omega]
        exact ⟨b, by simpa using b1, b2⟩
    · cases dsts with
      | nil =>
        cases h with
        | stop => rfl
      | cons b rest =>
        rw [i2 (by simp)]
        simp only [List.length_cons]
        congr 2
        omega

/-- **C109** (a send without trouble): every destination gets its datagram, with the numbers that follow the one the stamp showed (or the time, if it was never used), and the stamp then shows the
last of them. -/
theorem C109_stamp_exact {A : Aead} {hash : List Char → U64} {s s' : Stamp} {env : Env} {cmd : SendCmd} {senv : SendEnv} {out : Spec.Sent} {l : Letter} {n : Nat}
    (h : StampStep A hash s (.send env false cmd senv) out s') (hm : Means cmd senv l)
    (hn : s.shows = .number n ∨ (s.shows = .nothing ∧ ∃ t : U128, env.clock.head? = some (some t) ∧ n = t.toNat)) (ht : ¬ ClientTrouble env) (hr : ¬ NoRandom senv) (hroom : n + l.dsts.length < 2 ^ 128) :
    out.length = l.dsts.length ∧
      (∀ i a, l.dsts[i]? = some a → ∃ b, out[i]? = some (a.ip, a.port, BitVec.ofNat 128 (n + 1 + i), b) ∧ IsPacket A l.key (asks hash cmd l a.ip (n + 1 + i)) b) ∧
      s' = ⟨.number (n + l.dsts.length), []⟩ := by
  cases h with
  | unsent s' env held cmd senv why h =>
    rcases why with why | why | why | why
    · cases why
    · exact absurd ⟨l, hm⟩ why
    · rcases hn with hn | ⟨hn, _⟩ <;> rw [why] at hn <;> cases hn
    · exact absurd why ht
  | sends s1 s' env cmd senv l' n' out hm' hn' h hall =>
    cases means_unique hm hm'
    have hnn : n' = n := by
      rcases hn with hn | ⟨hn, t, ht1, ht2⟩ <;> rcases hn' with ⟨hn', _⟩ | ⟨hn', _, t', ht1', ht2'⟩ <;> rw [hn] at hn' <;> cases hn'
      · rfl
      · rw [ht1] at ht1'
        cases ht1'
        rw [ht2, ht2']
    subst hnn
    have hlen := hall ht hr hroom
    obtain ⟨k1, k2⟩ := stamps_all h hlen
    obtain ⟨full, _, h2⟩ := hm.host
    exact ⟨hlen, k1, k2 (C35_bounds _ _ _ _ h2).choose_spec.2.1⟩

/-- **C109** (setting the stamp anew without trouble): it shows the time, whatever it showed. -/
theorem C109_stamp_set {A : Aead} {hash : List Char → U64} {s s' : Stamp} {env : Env} {out : Spec.Sent} {t : U128} (h : StampStep A hash s (.reseed env false) out s') (ht : ¬ ClientTrouble env)
    (hc : env.clock.head? = some (some t)) : out = [] ∧ s' = ⟨.number t.toNat, []⟩ := by
  cases h with
  | set env t' ht' =>
    rw [hc] at ht'
    cases ht'
    exact ⟨rfl, rfl⟩
  | notSet s' env held why h =>
    rcases why with why | why
    · cases why
    · exact absurd why ht

/-- Non-vacuity of `C109_client_is_a_stamp` and `C109_stamp_increasing`: the history of `exClientHistory` (a send killed half way, one that fails, ordinary ones), from no counter file on. -/
example : ∃ s out, StampRun toyAead (fun _ => 7) ⟨.nothing, []⟩ exClientHistory out s ∧ out.map (fun x => x.2.2.1) = [1001, 1002, 1005, 1006, 1007] ∧ s.shows = .number 1007 ∧
    out.Pairwise (fun x y => x.2.2.1.toNat < y.2.2.1.toNat) := by
  have hnp : CEv.power ∉ exClientHistory := by simp [exClientHistory, exSend]
  obtain ⟨s, out, h1, h2, h3⟩ := C109_client_is_a_stamp toyAead_correct (cexec_run toyAead (fun _ => 7) "/c".toList exClientHistory (by simp [exClientHistory, exSend]) (exDisk none [])) (fun h => absurd h hnp)
    (fun h => absurd h hnp)
  refine ⟨s, out, h1, ?_, ?_, (C109_stamp_increasing h1 (by simp [exClientHistory, exSend])).1⟩
  · have : datagrams (exDisk none []).log = [] := rfl
    rw [this, List.nil_append] at h2
    rw [← h2]
    decide +kernel
  · rw [← h3]
    decide +kernel

theorem exStamp_means : Means exCmd (exClientEnv exClientKey) ⟨exSenderKey, none, [⟨.v4 0x0a000002, 80⟩, ⟨.v6 1, 80⟩]⟩ where
  host := ⟨"host:80".toList, by decide +kernel, by decide +kernel⟩
  claimed := rfl
  key := ⟨exClientKey, rfl, by decide +kernel⟩

theorem exStamp_fine (now : U128) : ¬ ClientTrouble ⟨[], List.replicate 9 (some now)⟩ := by
  rintro (⟨c, hc, _⟩ | h | h)
  · cases hc
  · have h := List.eq_of_mem_replicate h
    cases h
  · simp at h

theorem exStamp_random : ¬ NoRandom (exClientEnv exClientKey) := by
  rintro ⟨i, h⟩
  exact h _ rfl (by simp)

/-- Non-vacuity of `C109_stamp_exact`, `C109_stamp_no_leap` and `C109_stamp_set`: the first send of a new client, and setting the time. -/
example : ∃ out s, StampStep toyAead (fun _ => 7) ⟨.nothing, []⟩ (exSend 1000 []) out s ∧ out.length = 2 ∧ s = ⟨.number 1002, []⟩ ∧
    ∃ s', StampStep toyAead (fun _ => 7) s (.reseed ⟨[], List.replicate 9 (some 77)⟩ false) [] s' ∧ s' = ⟨.number 77, []⟩ := by
  obtain ⟨s, out, h⟩ : ∃ s out, StampStep toyAead (fun _ => 7) ⟨.nothing, []⟩ (exSend 1000 []) out s := by
    generalize hw : cexec toyAead (fun _ => 7) "/c".toList (exDisk none []) (exSend 1000 []) = w'
    have hst : CStep toyAead (fun _ => 7) "/c".toList (exDisk none []) (exSend 1000 []) w' := by
      subst hw
      exact CStep.send _ _ _ _ _ (runSend _ _ _ _ _ _ _).1 _ (Prod.eta _).symm
    obtain ⟨s, out, _, _, h⟩ := stamp_step (pw := false) (s := ⟨.nothing, []⟩) toyAead_correct hst (by unfold exSend; exact nofun) ⟨rfl, nofun, nofun⟩ nofun
    exact ⟨s, out, h⟩
  obtain ⟨h1, _, h3⟩ := C109_stamp_exact (n := 1000) h exStamp_means (.inr ⟨rfl, 1000, rfl, rfl⟩) (exStamp_fine _) exStamp_random (by decide)
  have hset : StampStep toyAead (fun _ => 7) s (.reseed ⟨[], List.replicate 9 (some 77)⟩ false) [] ⟨.number 77, []⟩ := .set s _ 77 rfl
  exact ⟨out, s, h, h1, h3, _, hset, (C109_stamp_set (t := 77) hset (exStamp_fine _) rfl).2⟩

end Ruroco
