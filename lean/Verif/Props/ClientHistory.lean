import Verif.Props.Client
import Verif.Spec.Terms.ClientHistory

/-! # C32: client counters are never reused -/

namespace Ruroco

open Spec (wire counterOnDisk IsPacket PowerLoss Survives Durable)

/-- A file that holds a counter of at least `c`, safely if power may be lost. -/
def HoldsAtLeast (pw : Bool) (c : Nat) (f : Option File) : Prop :=
  ∃ file, f = some file ∧ (pw = true → file.synced = true) ∧ 16 ≤ file.data.length ∧ c ≤ ofBE (file.data.take 16)

/-- What is true of the world between the steps of a client. `base`: lower bounds for what is on disk. -/
structure CInv (A : Aead) (pw : Bool) (P : Path) (base : List Nat) (old : List Event) (w : World) : Prop where
  increasing : (wire w.log).Pairwise (fun a b => a.toNat < b.toNat)
  stored : ∀ f ∈ cands pw w P, ∀ c ∈ base ++ (wire w.log).map BitVec.toNat, HoldsAtLeast pw c f
  above : ∀ b ∈ base, ∀ c ∈ wire w.log, b < c.toNat
  genuine : ∀ ip port c bytes, .udp ip port c bytes ∈ w.log → .udp ip port c bytes ∈ old ∨
    ∃ h d, d.counter = c ∧ d.dstIp = ip ∧ IsPacket A h d bytes

def SyncedAt (pw : Bool) (P : Path) (log : List Event) : Prop := pw = true → .dirSyncFailed P ∉ log

theorem SyncedAt.mono {pw : Bool} {P : Path} {a b : List Event} (h : SyncedAt pw P (a ++ b)) : SyncedAt pw P a :=
  fun hp hm => h hp (List.mem_append_left _ hm)

/-- The same, provided that no directory fsync was reported as failing (or power is never lost). -/
def CInvIf (A : Aead) (pw : Bool) (P : Path) (base : List Nat) (old : List Event) (w : World) : Prop :=
  SyncedAt pw P w.log → CInv A pw P base old w

/-- Inside a run the counter in memory bounds everything used so far. -/
def Above (base : List Nat) (w : World) (n : Nat) : Prop := ∀ c ∈ base ++ (wire w.log).map BitVec.toNat, c ≤ n

/-- Files unchanged, no datagram: the invariant stays. -/
theorem CInv.quiet {A : Aead} {pw : Bool} {P : Path} {base : List Nat} {old : List Event} {w w' : World} (h : CInv A pw P base old w)
    (hfs : w'.fs P = w.fs P) (hpend : w'.pend P = w.pend P) {l : List Event} (hlog : w'.log = w.log ++ l)
    (hl : ∀ ip port c bytes, .udp ip port c bytes ∉ l) : CInv A pw P base old w' ∧ wire w'.log = wire w.log := by
  have hw : wire l = [] := by
    unfold wire
    rw [List.filterMap_eq_nil_iff]
    intro e he
    cases e with
    | udp ip port c b => exact absurd he (hl ip port c b)
    | _ => rfl
  have hw' : wire w'.log = wire w.log := by rw [hlog, wire_append, hw, List.append_nil]
  refine ⟨⟨by rw [hw']; exact h.increasing, ?_, by rw [hw']; exact h.above, ?_⟩, hw'⟩
  · rw [hw']
    unfold cands
    rw [hfs, hpend]
    exact h.stored
  · intro ip port c bytes hm
    rw [hlog] at hm
    rcases List.mem_append.1 hm with hm | hm
    · exact h.genuine ip port c bytes hm
    · exact absurd hm (hl _ _ _ _)

theorem fileEvents_noUdp {P : Path → Prop} {l : List Event} (h : FileEvents P l) : ∀ ip port c bytes, .udp ip port c bytes ∉ l := by
  intro ip port c bytes hm
  exact absurd (h _ hm) (by simp)

/-- Writing a counter above everything used so far. -/
theorem CInv.wrote {A : Aead} {pw : Bool} {P : Path} {base : List Nat} {old : List Event} {w w' : World} {v : U128} {o : Out Unit}
    (h : CInv A pw P base old w) (hv : Above base w v.toNat) (hw : WroteAtomic P (beBytes 16 v.toNat) none o w w') :
    CInv A pw P base old w' ∧ wire w'.log = wire w.log ∧
      (o = .ok () → SyncedAt pw P w'.log → ∀ f ∈ cands pw w' P, HoldsAtLeast pw v.toNat f) := by
  obtain ⟨l, hlog, hl⟩ := hw.log
  have hwire : wire w'.log = wire w.log := by rw [hlog, wire_append, wire_fileEvents hl, List.append_nil]
  have hgen : ∀ ip port c bytes, .udp ip port c bytes ∈ w'.log → .udp ip port c bytes ∈ old ∨
      ∃ h d, d.counter = c ∧ d.dstIp = ip ∧ IsPacket A h d bytes := by
    intro ip port c bytes hm
    rw [hlog] at hm
    rcases List.mem_append.1 hm with hm | hm
    · exact h.genuine ip port c bytes hm
    · exact absurd hm (fileEvents_noUdp hl _ _ _ _)
  have hnew : ∀ f, (∃ file, f = some file ∧ file.data = beBytes 16 v.toNat ∧ file.synced = true) → ∀ c, c ≤ v.toNat → HoldsAtLeast pw c f := by
    rintro f ⟨file, rfl, h1, h2⟩ c hc
    refine ⟨file, rfl, fun _ => h2, by rw [h1]; simp, ?_⟩
    rw [h1, List.take_of_length_le (by simp), ofBE_beBytes, Nat.mod_eq_of_lt]
    · exact hc
    · have := v.isLt
      omega
  rcases hw.result with ⟨h1, h2, h3⟩ | ⟨⟨f, h1, h2, h3, _⟩, h4, h5, h6⟩
  · refine ⟨⟨by rw [hwire]; exact h.increasing, ?_, by rw [hwire]; exact h.above, hgen⟩, hwire, fun ho => absurd ho h3⟩
    rw [hwire]
    unfold cands
    rw [h1, h2]
    exact h.stored
  · refine ⟨⟨by rw [hwire]; exact h.increasing, ?_, by rw [hwire]; exact h.above, hgen⟩, hwire, ?_⟩
    · rw [hwire]
      intro g hg c hc
      unfold cands at hg
      rcases List.mem_cons.1 hg with rfl | hg
      · exact hnew _ ⟨f, h1, h2, h3⟩ c (hv c hc)
      · cases pw with
        | false => cases hg
        | true => exact h.stored g (by unfold cands; exact h4 g hg) c hc
    · intro ho hs g hg
      unfold cands at hg
      rcases List.mem_cons.1 hg with rfl | hg
      · exact hnew _ ⟨f, h1, h2, h3⟩ _ (Nat.le_refl _)
      · cases pw with
        | false => cases hg
        | true =>
          rw [if_pos rfl, h6 ho (fun hm => hs rfl (List.mem_of_mem_drop hm))] at hg
          cases hg

theorem netEvents_udp {a : SockAddr} {c : U128} {bytes : List Byte} {sent : Bool} {l : List Event} (h : NetEvents a c bytes sent l)
    {ip : Ip} {port : Nat} {c' : U128} {b : List Byte} (hm : .udp ip port c' b ∈ l) : ip = a.ip ∧ c' = c ∧ b = bytes := by
  obtain ⟨n, rfl⟩ := h.shape
  rcases List.mem_append.1 hm with hm | hm
  · cases List.eq_of_mem_replicate hm
  · split at hm
    · simp at hm
      exact ⟨hm.1, hm.2.2.1, hm.2.2.2⟩
    · cases hm

/-- One attempt keeps the invariant, at every outcome. -/
theorem CInv.attempt {A : Aead} {hash : List Char → U64} {pw : Bool} {base : List Nat} {old : List Event} {s : Sender} {a : SockAddr}
    {rnd : Option (List Byte)} {w w' : World} {o : Out (Sender × Except Err Unit)} (h : CInv A pw s.counter.path base old w)
    (hab : Above base w s.counter.count.toNat) (hat : Attempt A hash s a rnd w o w') (hs : SyncedAt pw s.counter.path w'.log) :
    CInv A pw s.counter.path base old w' ∧
      ∀ s' r, o = .ok (s', r) → s'.counter.path = s.counter.path ∧ Above base w' s'.counter.count.toNat := by
  have h0 := h.quiet (w' := { w with log := w.log ++ [.sendTo a.ip a.port] }) (by rfl) (by rfl) (by rfl) (by simp)
  have hab0 : s.Room → Above base { w with log := w.log ++ [.sendTo a.ip a.port] } s.bump.counter.count.toNat := by
    intro hroom c hc
    rw [h0.2] at hc
    have := hab c hc
    rw [bump_count s hroom]
    omega
  cases hat with
  | overflow hroom w' hfs hpend hlog =>
    obtain ⟨h1, h2⟩ := h.quiet (w' := w') (by rw [hfs]) (by rw [hpend]) hlog (by simp)
    refine ⟨h1, ?_⟩
    intro s' r ho
    cases ho
    refine ⟨rfl, ?_⟩
    unfold Above
    rw [h2]
    exact hab
  | writeFailed hroom e w' hw =>
    obtain ⟨h1, h2, _⟩ := h0.1.wrote (hab0 hroom) hw
    refine ⟨h1, ?_⟩
    intro s' r ho
    cases ho
    refine ⟨rfl, ?_⟩
    unfold Above
    rw [h2]
    exact hab0 hroom
  | writeCrashed hroom w' hw => exact ⟨(h0.1.wrote (hab0 hroom) hw).1, nofun⟩
  | encryptFailed hroom e w' henc hw =>
    obtain ⟨h1, h2, _⟩ := h0.1.wrote (hab0 hroom) hw
    refine ⟨h1, ?_⟩
    intro s' r ho
    cases ho
    refine ⟨rfl, ?_⟩
    unfold Above
    rw [h2]
    exact hab0 hroom
  | net hroom bytes w1 w' henc hw hfs hpend sent l hl hlog o ho =>
    obtain ⟨h1, h2, h3⟩ := h0.1.wrote (hab0 hroom) hw
    have hs1 : SyncedAt pw s.counter.path w1.log := by rw [hlog] at hs; exact hs.mono
    have hst := h3 rfl hs1
    have hwire : wire w'.log = wire w.log ++ (if sent then [s.bump.counter.count] else []) := by
      rw [hlog, wire_append, h2, h0.2, wire_net hl]
    have hab1 := hab0 hroom
    unfold Above at hab1
    rw [h0.2] at hab1
    refine ⟨⟨?_, ?_, ?_, ?_⟩, ?_⟩
    · rw [hwire, List.pairwise_append]
      refine ⟨h.increasing, by split <;> simp, ?_⟩
      intro x hx y hy
      have hy : y = s.bump.counter.count := by
        split at hy
        · simpa using hy
        · cases hy
      have := hab x.toNat (List.mem_append_right _ (List.mem_map_of_mem hx))
      rw [hy, bump_count s hroom]
      omega
    · intro f hf c hc
      unfold cands at hf
      rw [hfs, hpend] at hf
      rw [hwire, List.map_append, ← List.append_assoc] at hc
      rcases List.mem_append.1 hc with hc | hc
      · exact h1.stored f hf c (by rw [h2, h0.2]; exact hc)
      · have hc : c = s.bump.counter.count.toNat := by
          split at hc
          · simpa using hc
          · cases hc
        rw [hc]
        exact hst f hf
    · intro b hb c hc
      rw [hwire] at hc
      rcases List.mem_append.1 hc with hc | hc
      · exact h.above b hb c hc
      · have hc : c = s.bump.counter.count := by
          split at hc
          · simpa using hc
          · cases hc
        have := hab b (List.mem_append_left _ hb)
        rw [hc, bump_count s hroom]
        omega
    · intro ip port c b hm
      rw [hlog] at hm
      rcases List.mem_append.1 hm with hm | hm
      · exact h1.genuine ip port c b hm
      · obtain ⟨rfl, rfl, rfl⟩ := netEvents_udp hl hm
        exact Or.inr ⟨s.handler, s.bump.request hash a.ip, rfl, rfl, encode_isPacket henc⟩
    · intro s' r ho'
      have hs' : s' = s.bump := by
        rcases ho with ho | ho | ⟨ho, _⟩ <;> rw [ho] at ho' <;> cases ho' <;> rfl
      subst hs'
      refine ⟨rfl, ?_⟩
      intro c hc
      rw [hwire, List.map_append, ← List.append_assoc] at hc
      rcases List.mem_append.1 hc with hc | hc
      · exact hab1 c hc
      · split at hc
        · simp at hc; omega
        · cases hc

theorem attempt_log {A : Aead} {hash : List Char → U64} {s : Sender} {a : SockAddr} {rnd : Option (List Byte)} {w w' : World}
    {o : Out (Sender × Except Err Unit)} (h : Attempt A hash s a rnd w o w') : ∃ l, w'.log = w.log ++ l := by
  cases h with
  | overflow hroom w' hfs hpend hlog => exact ⟨_, hlog⟩
  | writeFailed hroom e w' h => obtain ⟨l, h, _⟩ := h.log; exact ⟨_, by rw [h]; exact List.append_assoc _ _ _⟩
  | writeCrashed hroom w' h => obtain ⟨l, h, _⟩ := h.log; exact ⟨_, by rw [h]; exact List.append_assoc _ _ _⟩
  | encryptFailed hroom e w' henc h => obtain ⟨l, h, _⟩ := h.log; exact ⟨_, by rw [h]; exact List.append_assoc _ _ _⟩
  | net hroom bytes w1 w' henc h hfs hpend sent l hl hlog o ho =>
    obtain ⟨l1, h, _⟩ := h.log
    exact ⟨.sendTo a.ip a.port :: (l1 ++ l), by rw [hlog, h]; simp⟩

/-- The loop over the destinations keeps the invariant, at every outcome. -/
theorem sendLoop_inv (A : Aead) (hash : List Char → U64) (rnd : Nat → Option (List Byte)) (pw : Bool) (P : Path) (base : List Nat) (old : List Event)
    (dsts : List SockAddr) (s : Sender) (i : Nat) (w : World) (hp : s.counter.path = P)
    (h : SyncedAt pw P w.log → CInv A pw P base old w ∧ Above base w s.counter.count.toNat) :
    wp (s.sendLoop A hash rnd i dsts) w (fun _ w' => CInvIf A pw P base old w') := by
  induction dsts generalizing s i w with
  | nil => exact fun hs => (h hs).1
  | cons a rest ih =>
    unfold Sender.sendLoop
    rw [wp_bind]
    have hpause : wp (s.pause i) w (fun o w' => o = .ok () ∧ w'.fs = w.fs ∧ w'.pend = w.pend ∧
        w'.log = w.log ++ (if 0 < i ∧ 0 < s.cmd.delayMs then [.sleep s.cmd.delayMs] else [])) := by
      unfold Sender.pause
      split
      · exact ⟨rfl, rfl, rfl, rfl⟩
      · exact ⟨rfl, rfl, rfl, by simp [pure, Act.pure]⟩
    refine wp_mono hpause ?_
    rintro o w1 ⟨rfl, hfs1, hpend1, hlog1⟩
    simp only
    have h1 : SyncedAt pw P w1.log → CInv A pw P base old w1 ∧ Above base w1 s.counter.count.toNat := by
      intro hs
      rw [hlog1] at hs
      obtain ⟨a1, a2⟩ := h hs.mono
      obtain ⟨b1, b2⟩ := a1.quiet (w' := w1) (by rw [hfs1]) (by rw [hpend1]) hlog1 (by intros; split <;> simp)
      refine ⟨b1, ?_⟩
      unfold Above
      rw [b2]
      exact a2
    rw [wp_bind]
    refine wp_mono (sendData_spec A hash s a (rnd i) w1) ?_
    intro o w2 hat
    have hstep : SyncedAt pw P w2.log → CInv A pw P base old w2 ∧
        ∀ s' r, o = .ok (s', r) → s'.counter.path = P ∧ Above base w2 s'.counter.count.toNat := by
      intro hs
      have hs1 : SyncedAt pw P w1.log := by
        obtain ⟨l, hl⟩ := attempt_log hat
        rw [hl] at hs
        exact hs.mono
      obtain ⟨a1, a2⟩ := h1 hs1
      subst hp
      exact a1.attempt a2 hat hs
    cases o with
    | crash => exact fun hs => (hstep hs).1
    | err e => exact fun hs => (hstep hs).1
    | ok x =>
      obtain ⟨s1, r⟩ := x
      have hp1 : s1.counter.path = P := by
        rcases (attempt_trace hat).1 with rfl | rfl
        · exact hp
        · exact hp
      simp only
      cases r with
      | error e =>
        simp only
        rw [wp_bind, wp_note]
        simp only
        rw [wp_bind]
        refine wp_mono (ih s1 (i + 1) _ hp1 ?_) ?_
        · intro hs
          obtain ⟨a1, a2⟩ := hstep hs.mono
          obtain ⟨b1, b2⟩ := a1.quiet (w' := { w2 with log := w2.log ++ [.sendFailed a.ip a.port] }) (by rfl) (by rfl) (by rfl) (by simp)
          refine ⟨b1, ?_⟩
          unfold Above
          rw [b2]
          exact (a2 s1 _ rfl).2
        · intro o w3 h3
          cases o <;> exact h3
      | ok u =>
        simp only
        exact ih s1 (i + 1) w2 hp1 (fun hs => ⟨(hstep hs).1, ((hstep hs).2 s1 _ rfl).2⟩)

/-- Opening the counter keeps the invariant; what it yields is not below anything used. -/
theorem init_inv {A : Aead} {pw : Bool} {P : Path} {base : List Nat} {old : List Event} {initial : U128} {w w' : World} {o : Out Counter}
    (h : CInv A pw P base old w) (hi : Init P initial w o w') :
    CInv A pw P base old w' ∧ ∀ c, o = .ok c → c.path = P ∧ Above base w' c.count.toNat := by
  have hro : ∀ {w1}, ReadOnly P w w1 → CInv A pw P base old w1 ∧ wire w1.log = wire w.log := by
    intro w1 hro
    obtain ⟨l, h1, h2⟩ := hro.log
    exact h.quiet (by rw [hro.fs]) (by rw [hro.pend]) h1 (fun ip port c b hm => by cases h2 _ hm)
  -- without a file nothing was used
  have hnone : w.fs P = none → ∀ c, c ∉ base ++ (wire w.log).map BitVec.toNat := by
    intro hn c hc
    obtain ⟨f, hf, _⟩ := h.stored (w.fs P) (by unfold cands; simp) c hc
    rw [hn] at hf
    cases hf
  have hab : w.fs P = none → ∀ {w1}, ReadOnly P w w1 → ∀ n, Above base w1 n := by
    intro hn w1 hr n c hc
    rw [(hro hr).2] at hc
    exact absurd hc (hnone hn c)
  cases hi with
  | found c w' hr hd =>
    refine ⟨(hro hr).1, ?_⟩
    intro c' hc'
    cases hc'
    refine ⟨rfl, ?_⟩
    intro x hx
    rw [(hro hr).2] at hx
    obtain ⟨f, hf, _, h16, hle⟩ := h.stored (w.fs P) (by unfold cands; simp) x hx
    unfold counterOnDisk at hd
    rw [hf] at hd
    simp only [if_pos h16] at hd
    injection hd with hd
    rw [hd] at hle
    exact hle
  | seeded w1 w' hr habs hw =>
    obtain ⟨a1, a2, _⟩ := (hro hr).1.wrote (hab habs hr _) hw
    refine ⟨a1, ?_⟩
    intro c hc
    cases hc
    refine ⟨rfl, ?_⟩
    unfold Above
    rw [a2]
    exact hab habs hr _
  | seedFailed e w1 w' hr habs hw => exact ⟨((hro hr).1.wrote (hab habs hr _) hw).1, nofun⟩
  | seedCrashed w1 w' hr habs hw => exact ⟨((hro hr).1.wrote (hab habs hr _) hw).1, nofun⟩
  | refused e w' hr he => exact ⟨(hro hr).1, nofun⟩
  | crashed w' hr => exact ⟨(hro hr).1, nofun⟩

theorem init_log {P : Path} {initial : U128} {w w' : World} {o : Out Counter} (h : Init P initial w o w') : ∃ l, w'.log = w.log ++ l := by
  have hw : ∀ {ow w1}, ReadOnly P w w1 → WroteAtomic P (beBytes 16 initial.toNat) none ow w1 w' → ∃ l, w'.log = w.log ++ l := by
    intro ow w1 hr hw
    obtain ⟨l1, h1, _⟩ := hr.log
    obtain ⟨l2, h2, _⟩ := hw.log
    exact ⟨l1 ++ l2, by rw [h2, h1, List.append_assoc]⟩
  cases h with
  | found c w' hr hd => obtain ⟨l, h, _⟩ := hr.log; exact ⟨l, h⟩
  | seeded w1 w' hr habs h => exact hw hr h
  | seedFailed e w1 w' hr habs h => exact hw hr h
  | seedCrashed w1 w' hr habs h => exact hw hr h
  | refused e w' hr he => obtain ⟨l, h, _⟩ := hr.log; exact ⟨l, h⟩
  | crashed w' hr => obtain ⟨l, h, _⟩ := hr.log; exact ⟨l, h⟩

theorem senderCreate_inv (A : Aead) (dir : Path) (cmd : SendCmd) (env : SendEnv) (pw : Bool) (base : List Nat) (old : List Event) (w : World)
    (h : CInvIf A pw (counterPath dir) base old w) :
    wp (Sender.create dir cmd env) w (fun o w' => CInvIf A pw (counterPath dir) base old w' ∧ ∀ s, o = .ok s →
      s.counter.path = counterPath dir ∧ (SyncedAt pw (counterPath dir) w'.log → Above base w' s.counter.count.toNat)) := by
  unfold Sender.create
  rw [wp_bind, wp_ofExcept]
  cases ensurePort cmd.address DEFAULT_PORT with
  | error e => exact ⟨h, nofun⟩
  | ok address =>
    simp only
    rw [wp_bind, wp_ofExcept]
    cases parseIpOption cmd.ip with
    | error e => exact ⟨h, nofun⟩
    | ok srcIp =>
      simp only
      cases env.keyText with
      | none => exact ⟨h, nofun⟩
      | some key =>
        simp only
        rw [wp_bind, wp_ofExcept]
        cases CryptoHandler.create (trim key) with
        | error e => exact ⟨h, nofun⟩
        | ok handler =>
          simp only
          rw [wp_bind]
          apply wp_nowNanos
          · intro now c hc
            simp only
            rw [wp_bind]
            have h1 : CInvIf A pw (counterPath dir) base old { w with clock := c } := fun hs =>
              ((h hs).quiet (w' := { w with clock := c }) (by rfl) (by rfl) (l := []) (by simp) (by simp)).1
            refine wp_mono (Counter.createAndInit_spec (counterPath dir) now _) ?_
            intro o w1 hi
            have hmono : SyncedAt pw (counterPath dir) w1.log → SyncedAt pw (counterPath dir) w.log := by
              obtain ⟨l, hl⟩ := init_log hi
              rw [hl]
              exact fun hs => hs.mono
            cases o with
            | crash => exact ⟨fun hs => (init_inv (h1 (hmono hs)) hi).1, nofun⟩
            | err e => exact ⟨fun hs => (init_inv (h1 (hmono hs)) hi).1, nofun⟩
            | ok ctr =>
              refine ⟨fun hs => (init_inv (h1 (hmono hs)) hi).1, ?_⟩
              intro s hs
              cases hs
              have hp : ctr.path = counterPath dir := by
                generalize ho : (Out.ok ctr) = o at hi
                cases hi <;> cases ho <;> rfl
              exact ⟨hp, fun hs => ((init_inv (h1 (hmono hs)) hi).2 ctr rfl).2⟩
          · intro c
            exact ⟨fun hs => ((h hs).quiet (w' := { w with clock := c }) (by rfl) (by rfl) (l := []) (by simp) (by simp)).1, nofun⟩

theorem acquireLock_inv (A : Aead) (p P : Path) (hne : p ≠ P) (held : Bool) (pw : Bool) (base : List Nat) (old : List Event) (w : World)
    (h : CInvIf A pw P base old w) : wp (acquireLock p held) w (fun _ w' => CInvIf A pw P base old w') := by
  unfold acquireLock openCreate
  rw [wp_bind]
  have step : ∀ {w w' : World} (op : FileOp), CInvIf A pw P base old w → w'.fs P = w.fs P → w'.pend P = w.pend P →
      w'.log = w.log ++ [.file op p] → CInvIf A pw P base old w' := by
    intro w w' op h h1 h2 h3 hs
    rw [h3] at hs
    exact ((h hs.mono).quiet h1 h2 h3 (by simp)).1
  have h1 : ∀ o, CInvIf A pw P base old { w with log := w.log ++ [.file .openTrunc p], oracle := o } := fun o => step .openTrunc h rfl rfl rfl
  have h2 : ∀ w : World, CInvIf A pw P base old w → CInvIf A pw P base old (match w.fs p with
      | some _ => w
      | none => w.setEntry p (some ⟨[], w.newMode, false, .creator⟩)) := by
    intro w h
    split
    · exact h
    · intro hs
      have hs : SyncedAt pw P w.log := hs
      refine ((h hs).quiet (l := []) ?_ ?_ ?_ (by simp)).1
      · simp [World.setEntry, Ne.symm hne]
      · simp [World.setEntry, Ne.symm hne]
      · simp [World.setEntry]
  have h3 : ∀ w : World, CInvIf A pw P base old w → wp (do atomicCall (.file .lock p) id; if held then Act.throw .locked else pure ()) w
      (fun _ w' => CInvIf A pw P base old w') := by
    intro w h
    rw [wp_bind]
    apply wp_atomicCall <;> intro o
    · simp only [id]
      split
      · exact step .lock h rfl rfl rfl
      · exact step .lock h rfl rfl rfl
    · exact step .lock h rfl rfl rfl
    · exact step .lock h rfl rfl rfl
    · exact step .lock h rfl rfl rfl
  apply wp_atomicCall <;> intro o
  · exact h3 _ (h2 _ (h1 o))
  · exact h1 o
  · exact h1 o
  · exact h2 _ (h1 o)

theorem lock_ne_counter (dir : Path) : dir ++ "/client.lock".toList ≠ counterPath dir := by
  unfold counterPath
  intro h
  have := List.append_cancel_left h
  revert this
  decide

/-- A whole `send` keeps the invariant, at every outcome. -/
theorem runSend_inv (A : Aead) (hash : List Char → U64) (dir : Path) (held : Bool) (cmd : SendCmd) (env : SendEnv) (pw : Bool) (base : List Nat)
    (old : List Event) (w : World) (h : CInvIf A pw (counterPath dir) base old w) :
    wp (runSend A hash dir held cmd env) w (fun _ w' => CInvIf A pw (counterPath dir) base old w') := by
  unfold runSend
  rw [wp_bind]
  refine wp_mono (acquireLock_inv A _ _ (lock_ne_counter dir) held pw base old w h) ?_
  intro o w1 h1
  cases o with
  | crash => exact h1
  | err e => exact h1
  | ok u =>
    simp only
    rw [wp_bind]
    refine wp_mono (senderCreate_inv A dir cmd env pw base old w1 h1) ?_
    rintro o w2 ⟨h2, h3⟩
    cases o with
    | crash => exact h2
    | err e => exact h2
    | ok s =>
      simp only
      unfold Sender.send
      rw [wp_bind, wp_ofExcept]
      obtain ⟨hp, hab⟩ := h3 s rfl
      cases getDestinationIps s.cmd.ipv4 s.cmd.ipv6 (env.resolve s.cmd.address) with
      | error e => exact h2
      | ok dsts =>
        simp only
        unfold Sender.sendToDestinations
        rw [wp_bind]
        refine wp_mono (sendLoop_inv A hash env.rnd pw (counterPath dir) base old dsts s 0 w2 hp (fun hs => ⟨h2 hs, hab hs⟩)) ?_
        intro o w3 h4
        cases o with
        | crash => exact h4
        | err e => exact h4
        | ok x =>
          simp only
          split <;> exact h4

/-- A power loss keeps the invariant. -/
theorem CInv.power {A : Aead} {P : Path} {base : List Nat} {old : List Event} {w w' : World} (h : CInv A true P base old w) (hp : PowerLoss w w') :
    CInv A true P base old w' := by
  refine ⟨by rw [hp.log]; exact h.increasing, ?_, by rw [hp.log]; exact h.above, by rw [hp.log]; exact h.genuine⟩
  rw [hp.log]
  intro f hf c hc
  unfold cands at hf
  rw [if_pos rfl, hp.nothingPending] at hf
  simp at hf
  subst hf
  obtain ⟨g, hg, hsv⟩ := hp.entries P
  obtain ⟨file, h1, h2, h3, h4⟩ := h.stored g (by unfold cands; exact hg) c hc
  subst h1
  generalize hx : w'.fs P = x at hsv
  cases hsv with
  | synced _ hs => exact ⟨file, rfl, h2, h3, h4⟩
  | unsynced _ g hs => rw [h2 rfl] at hs; cases hs

theorem CStep.inv {A : Aead} {hash : List Char → U64} {dir : Path} {pw : Bool} {base : List Nat} {old : List Event} {w w' : World} {e : CEv}
    (hst : CStep A hash dir w e w') (hre : ∀ env held, e ≠ .reseed env held) (hpw : e = .power → pw = true)
    (h : CInvIf A pw (counterPath dir) base old w) : CInvIf A pw (counterPath dir) base old w' := by
  cases hst with
  | send env held cmd senv o _ hr =>
    have h0 : CInvIf A pw (counterPath dir) base old (w.withEnv env []) := fun hs =>
      ((h hs).quiet (w' := w.withEnv env []) (by rfl) (by rfl) (l := []) (by simp [World.withEnv]) (by simp)).1
    have := runSend_inv A hash dir held cmd senv pw base old _ h0
    unfold wp at this
    rw [hr] at this
    exact this
  | reseed env held o _ hr => exact absurd rfl (hre env held)
  | power _ hp =>
    have := hpw rfl
    subst this
    intro hs
    rw [hp.log] at hs
    exact (h hs).power hp
  | others _ hfs hpend hlog =>
    intro hs
    rw [hlog] at hs
    exact ((h hs).quiet hfs hpend (l := []) (by simp [hlog]) (by simp)).1

theorem CRun.inv {A : Aead} {hash : List Char → U64} {dir : Path} {pw : Bool} {base : List Nat} {old : List Event} {w w' : World} {evs : List CEv}
    (hr : CRun A hash dir w evs w') (hre : ∀ env held, .reseed env held ∉ evs) (hpw : .power ∈ evs → pw = true)
    (h : CInvIf A pw (counterPath dir) base old w) : CInvIf A pw (counterPath dir) base old w' := by
  induction hr with
  | nil => exact h
  | snoc hr hst ih =>
    refine hst.inv (fun env held he => hre env held (by simp [he])) (fun he => hpw (by simp [he])) (ih ?_ ?_)
    · exact fun env held hm => hre env held (List.mem_append_left _ hm)
    · exact fun hm => hpw (List.mem_append_left _ hm)

theorem counterOnDisk_of_holds {pw : Bool} {w : World} {P : Path} {c : Nat} (h : HoldsAtLeast pw c (w.fs P)) :
    ∃ v, counterOnDisk w P = some v ∧ c ≤ v := by
  obtain ⟨f, h1, _, h3, h4⟩ := h
  unfold counterOnDisk
  simp only [h1]
  exact ⟨_, if_pos h3, h4⟩

theorem CRun.invariant {A : Aead} {hash : List Char → U64} {dir : Path} {base : List Nat} {old : List Event} {w w' : World} {evs : List CEv}
    (hr : CRun A hash dir w evs w') (hre : ∀ env held, .reseed env held ∉ evs) (hsync : PowerSafe dir evs w')
    (h : ∀ pw, CInv A pw (counterPath dir) base old w) : ∃ pw, CInv A pw (counterPath dir) base old w' := by
  by_cases hp : .power ∈ evs
  · exact ⟨true, hr.inv hre (fun _ => rfl) (fun _ => h true) (fun _ => hsync hp)⟩
  · exact ⟨false, hr.inv hre (fun h => absurd h hp) (fun _ => h false) nofun⟩

/-- **C32.** Over every history of sends (each complete, failing or ended at any point), power losses and other processes, from a machine that has
sent nothing yet, without reseeding: the counters of all datagrams handed to the network strictly increase; and at the end of every such history –
thus after every step of the program, since each may be the last – each of them is covered by the counter on disk. -/
theorem C32_counters_never_reused (A : Aead) (hash : List Char → U64) (dir : Path) (w w' : World) (evs : List CEv)
    (hnone : wire w.log = []) (hr : CRun A hash dir w evs w') (hre : ∀ env held, .reseed env held ∉ evs) (hsync : PowerSafe dir evs w') :
    (wire w'.log).Pairwise (fun a b => a.toNat < b.toNat) ∧
    ∀ c ∈ wire w'.log, ∃ v, counterOnDisk w' (counterPath dir) = some v ∧ c.toNat ≤ v := by
  obtain ⟨pw, h⟩ := hr.invariant (base := []) (old := w.log) hre hsync (fun pw => ⟨by rw [hnone]; exact .nil, by rw [hnone]; simp, by rw [hnone]; simp, fun _ _ _ _ h => Or.inl h⟩)
  refine ⟨h.increasing, fun c hc => ?_⟩
  exact counterOnDisk_of_holds (h.stored (w'.fs (counterPath dir)) (by unfold cands; simp) c.toNat (List.mem_append_right _ (List.mem_map_of_mem hc)))

/-- **C32**, every datagram carries, sealed, the counter the other theorems speak about. -/
theorem C32_datagram_carries_counter (A : Aead) (hash : List Char → U64) (dir : Path) (w w' : World) (evs : List CEv)
    (hnone : wire w.log = []) (hr : CRun A hash dir w evs w') (hre : ∀ env held, .reseed env held ∉ evs)
    (hsync : PowerSafe dir evs w') (ip : Ip) (port : Nat) (c : U128) (bytes : List Byte) (hm : .udp ip port c bytes ∈ w'.log) :
    ∃ h d, d.counter = c ∧ d.dstIp = ip ∧ IsPacket A h d bytes := by
  obtain ⟨pw, h⟩ := hr.invariant (base := []) (old := w.log) hre hsync (fun pw => ⟨by rw [hnone]; exact .nil, by rw [hnone]; simp, by rw [hnone]; simp, fun _ _ _ _ h => Or.inl h⟩)
  rcases h.genuine ip port c bytes hm with hm | hm
  · have : c ∈ wire w.log := by
      unfold wire
      rw [List.mem_filterMap]
      exact ⟨_, hm, rfl⟩
    rw [hnone] at this
    cases this
  · exact hm

/-- **C32**, the counter on disk never decreases, and the counters of all later datagrams are above it. -/
theorem C32_disk_never_lowered (A : Aead) (hash : List Char → U64) (dir : Path) (w w' : World) (evs : List CEv) (v : Nat)
    (hv : counterOnDisk w (counterPath dir) = some v) (hdur : Durable w (counterPath dir)) (hr : CRun A hash dir w evs w')
    (hre : ∀ env held, .reseed env held ∉ evs) (hsync : PowerSafe dir evs w') (hnone : wire w.log = []) :
    (∃ v', counterOnDisk w' (counterPath dir) = some v' ∧ v ≤ v') ∧ ∀ c ∈ wire w'.log, v < c.toNat := by
  have hst : ∀ pw, ∀ f ∈ cands pw w (counterPath dir), HoldsAtLeast pw v f := by
    intro pw f hf
    unfold cands at hf
    rw [hdur.1] at hf
    simp at hf
    subst hf
    unfold counterOnDisk at hv
    split at hv
    · cases hv
    · rename_i file hfile
      split at hv
      · rename_i h16
        injection hv with hv
        exact ⟨file, hfile, fun _ => hdur.2 file hfile, h16, by omega⟩
      · cases hv
  obtain ⟨pw, h⟩ := hr.invariant (base := [v]) (old := w.log) hre hsync
    (fun pw => ⟨by rw [hnone]; exact .nil, by rw [hnone]; intro f hf c hc; simp at hc; subst hc; exact hst pw f hf, by rw [hnone]; simp, fun _ _ _ _ h => Or.inl h⟩)
  exact ⟨counterOnDisk_of_holds (h.stored (w'.fs (counterPath dir)) (by unfold cands; simp) v (by simp)), h.above v (by simp)⟩

/-! ## A concrete history -/

def exClientEnv (key : List Char) : SendEnv where
  keyText := some key
  resolve := fun _ => some [⟨.v4 0x0a000002, 80⟩, ⟨.v6 1, 80⟩]
  rnd := fun i => some (List.replicate 12 (BitVec.ofNat 8 i))

def exCmd : SendCmd := { address := "host".toList, command := "open".toList, permissive := true, ip := none, ipv4 := false, ipv6 := false, delayMs := 0 }

def exClientKey : List Char := match genKey (some exSenderKey.key) (some exSenderKey.id) with
  | .ok t => t
  | .error _ => []

def exSend (now : U128) (oracle : List Choice) : CEv := .send ⟨oracle, List.replicate 9 (some now)⟩ false exCmd (exClientEnv exClientKey)

/-- Executes the sends of a history. -/
def cexec (A : Aead) (hash : List Char → U64) (dir : Path) (w : World) : CEv → World
  | .send env held cmd senv => (runSend A hash dir held cmd senv (w.withEnv env [])).2
  | _ => w

theorem cexec_run (A : Aead) (hash : List Char → U64) (dir : Path) (evs : List CEv) (h : ∀ e ∈ evs, ∃ env held cmd senv, e = .send env held cmd senv)
    (w : World) : CRun A hash dir w evs (evs.foldl (cexec A hash dir) w) := by
  suffices H : ∀ (done todo : List CEv) (w0 : World), (∀ e ∈ todo, ∃ env held cmd senv, e = .send env held cmd senv) → CRun A hash dir w done w0 →
      CRun A hash dir w (done ++ todo) (todo.foldl (cexec A hash dir) w0) by
    simpa using H [] evs w h (.nil w)
  intro done todo
  induction todo generalizing done with
  | nil => intro w0 _ hr; simpa using hr
  | cons e rest ih =>
    intro w0 he hr
    obtain ⟨env, held, cmd, senv, rfl⟩ := he e (by simp)
    have := ih (done ++ [.send env held cmd senv]) _ (fun e h => he e (by simp [h])) (hr.snoc (.send w0 env held cmd senv _ _ rfl))
    rw [List.append_assoc] at this
    exact this

/-- First send; one that dies while replacing the file; one whose first write fails; one that works. -/
def exClientHistory : List CEv :=
  [exSend 1000 [], exSend 2000 ([.ok, .ok, .ok] ++ [.ok, .ok, .ok, .crash 1]), exSend 3000 ([.ok, .ok, .ok] ++ [.err 0]), exSend 4000 []]

def exClientEnd : World := exClientHistory.foldl (cexec toyAead (fun _ => 7) "/c".toList) (exDisk none [])

/-- Non-vacuity of C32. -/
theorem exClientHistory_wire : wire exClientEnd.log = [1001, 1002, 1005, 1006, 1007] ∧ counterOnDisk exClientEnd "/c/counter".toList = some 1007 := by
  decide +kernel

example : (wire exClientEnd.log).Pairwise (fun a b => a.toNat < b.toNat) :=
  (C32_counters_never_reused toyAead (fun _ => 7) "/c".toList (exDisk none []) _ exClientHistory rfl
    (cexec_run _ _ _ _ (by simp [exClientHistory, exSend]) _) (by simp [exClientHistory, exSend]) (by simp [PowerSafe, exClientHistory, exSend])).1

end Ruroco
