import Verif.Model.Joint
import Verif.Props.ClientHistory

/-! What a client with a given key and start time puts on the wire. -/

namespace Ruroco

open Spec (wire counterOnDisk PowerLoss Survives)

/-- `bytes` was made with a well-formed key, agreeing with the bond, for a request with counter `c`. -/
def Made (A : Aead) (b : Bond) (c : U128) (bytes : List Byte) : Prop :=
  ∃ (h : CryptoHandler) (iv : List Byte) (d : ClientData), h.id.length = 8 ∧ h.key.length = 32 ∧ iv.length = 12 ∧ d.counter = c ∧
    encode A h (some iv) d.serialize = .ok bytes ∧ (h.id = b.k → h.key = b.key)

/-- `W`: the counters sent before. -/
structure CKey (A : Aead) (pw : Bool) (P : Path) (b : Bond) (W : List U128) (w : World) : Prop where
  grows : ∃ l, wire w.log = W ++ l
  floor : ∀ f ∈ cands pw w P, f = none ∨ HoldsAtLeast pw b.T f
  above : ∀ c ∈ wire w.log, b.T < c.toNat
  made : ∀ ip port c bytes, .udp ip port c bytes ∈ w.log → Made A b c bytes

theorem wire_nil_of_noUdp {l : List Event} (hl : ∀ ip port c bytes, .udp ip port c bytes ∉ l) : wire l = [] := by
  unfold wire
  rw [List.filterMap_eq_nil_iff]
  intro e he
  cases e with
  | udp ip port c b => exact absurd he (hl ip port c b)
  | _ => rfl

theorem CKey.quiet {A : Aead} {pw : Bool} {P : Path} {b : Bond} {W : List U128} {w w' : World} (h : CKey A pw P b W w)
    (hfs : w'.fs P = w.fs P) (hpend : w'.pend P = w.pend P) {l : List Event} (hlog : w'.log = w.log ++ l)
    (hl : ∀ ip port c bytes, .udp ip port c bytes ∉ l) : CKey A pw P b W w' := by
  refine ⟨by rw [hlog, wire_append, wire_nil_of_noUdp hl, List.append_nil]; exact h.grows, ?_, ?_, ?_⟩
  · unfold cands
    rw [hfs, hpend]
    exact h.floor
  · rw [hlog, wire_append, wire_nil_of_noUdp hl, List.append_nil]
    exact h.above
  · intro ip port c bytes hm
    rw [hlog] at hm
    rcases List.mem_append.1 hm with hm | hm
    · exact h.made ip port c bytes hm
    · exact absurd hm (hl _ _ _ _)

theorem holds_new {pw : Bool} {v : U128} {file : File} (h1 : file.data = beBytes 16 v.toNat) (h2 : file.synced = true) {c : Nat} (hc : c ≤ v.toNat) :
    HoldsAtLeast pw c (some file) := by
  refine ⟨file, rfl, fun _ => h2, by rw [h1]; simp, ?_⟩
  rw [h1, List.take_of_length_le (by simp), ofBE_beBytes, Nat.mod_eq_of_lt]
  · exact hc
  · have := v.isLt
    omega

theorem CKey.wrote {A : Aead} {pw : Bool} {P : Path} {b : Bond} {W : List U128} {w w' : World} {v : U128} {o : Out Unit}
    (h : CKey A pw P b W w) (hv : b.T ≤ v.toNat) (hw : WroteAtomic P (beBytes 16 v.toNat) none o w w') : CKey A pw P b W w' := by
  obtain ⟨l, hlog, hl⟩ := hw.log
  have hq := fileEvents_noUdp hl
  refine ⟨by rw [hlog, wire_append, wire_nil_of_noUdp hq, List.append_nil]; exact h.grows, ?_, ?_, ?_⟩
  · rcases hw.result with ⟨h1, h2, h3⟩ | ⟨⟨f, h1, h2, h3, _⟩, h4, h5, h6⟩
    · unfold cands
      rw [h1, h2]
      exact h.floor
    · intro g hg
      unfold cands at hg
      rcases List.mem_cons.1 hg with rfl | hg
      · rw [h1]
        exact Or.inr (holds_new h2 h3 hv)
      · cases pw with
        | false => cases hg
        | true => exact h.floor g (by unfold cands; exact h4 g hg)
  · rw [hlog, wire_append, wire_nil_of_noUdp hq, List.append_nil]
    exact h.above
  · intro ip port c bytes hm
    rw [hlog] at hm
    rcases List.mem_append.1 hm with hm | hm
    · exact h.made ip port c bytes hm
    · exact absurd hm (hq _ _ _ _)

/-- The sender agrees with the bond. -/
structure Bonded (b : Bond) (P : Path) (s : Sender) : Prop where
  path : s.counter.path = P
  id : s.handler.id.length = 8
  key : s.handler.key.length = 32
  same : s.handler.id = b.k → s.handler.key = b.key
  count : b.T ≤ s.counter.count.toNat

theorem CKey.attempt {A : Aead} {hash : List Char → U64} {pw : Bool} {P : Path} {b : Bond} {W : List U128} {s : Sender} {a : SockAddr}
    {rnd : Option (List Byte)} (hrnd : ∀ iv, rnd = some iv → iv.length = 12) {w w' : World} {o : Out (Sender × Except Err Unit)}
    (h : CKey A pw P b W w) (hs : Bonded b P s) (hat : Attempt A hash s a rnd w o w') :
    CKey A pw P b W w' ∧ ∀ s' r, o = .ok (s', r) → Bonded b P s' := by
  have hp := hs.path
  subst hp
  have h0 := h.quiet (w' := { w with log := w.log ++ [.sendTo a.ip a.port] }) (by rfl) (by rfl) (by rfl) (by simp)
  have hb : s.Room → b.T < s.bump.counter.count.toNat := by
    intro hroom
    have := hs.count
    rw [bump_count s hroom]
    omega
  have hs' : s.Room → Bonded b s.counter.path s.bump := fun hroom => ⟨rfl, hs.id, hs.key, hs.same, Nat.le_of_lt (hb hroom)⟩
  cases hat with
  | overflow hroom w' hfs hpend hlog =>
    exact ⟨h.quiet (w' := w') (by rw [hfs]) (by rw [hpend]) hlog (by simp), fun s' r ho => by cases ho; exact hs⟩
  | writeFailed hroom e w' hw => exact ⟨h0.wrote (Nat.le_of_lt (hb hroom)) hw, fun s' r ho => by cases ho; exact hs' hroom⟩
  | writeCrashed hroom w' hw => exact ⟨h0.wrote (Nat.le_of_lt (hb hroom)) hw, nofun⟩
  | encryptFailed hroom e w' henc hw => exact ⟨h0.wrote (Nat.le_of_lt (hb hroom)) hw, fun s' r ho => by cases ho; exact hs' hroom⟩
  | net hroom bytes w1 w' henc hw hfs hpend sent l hl hlog o ho =>
    have h1 := h0.wrote (Nat.le_of_lt (hb hroom)) hw
    refine ⟨⟨?_, ?_, ?_, ?_⟩, ?_⟩
    · obtain ⟨m, hm⟩ := h1.grows
      exact ⟨m ++ _, by rw [hlog, wire_append, hm, List.append_assoc]⟩
    · unfold cands
      rw [hfs, hpend]
      exact h1.floor
    · intro c hc
      rw [hlog, wire_append, wire_net hl] at hc
      rcases List.mem_append.1 hc with hc | hc
      · exact h1.above c hc
      · split at hc
        · simp at hc
          rw [hc]
          exact hb hroom
        · cases hc
    · intro ip port c bs hm
      rw [hlog] at hm
      rcases List.mem_append.1 hm with hm | hm
      · exact h1.made ip port c bs hm
      · obtain ⟨rfl, rfl, rfl⟩ := netEvents_udp hl hm
        cases hr : rnd with
        | none =>
          rw [hr] at henc
          simp [encode, CryptoHandler.encrypt] at henc
        | some iv =>
          rw [hr] at henc
          exact ⟨s.handler, iv, _, hs.id, hs.key, hrnd iv hr, rfl, henc, hs.same⟩
    · intro s' r ho'
      have : s' = s.bump := by rcases ho with ho | ho | ⟨ho, _⟩ <;> rw [ho] at ho' <;> cases ho' <;> rfl
      rw [this]
      exact hs' hroom

theorem sendLoop_key (A : Aead) (hash : List Char → U64) (rnd : Nat → Option (List Byte)) (hrnd : ∀ i iv, rnd i = some iv → iv.length = 12)
    (pw : Bool) (P : Path) (b : Bond) (W : List U128) (dsts : List SockAddr) (s : Sender) (i : Nat) (w : World) (hs : Bonded b P s) (h : CKey A pw P b W w) :
    wp (s.sendLoop A hash rnd i dsts) w (fun _ w' => CKey A pw P b W w') := by
  induction dsts generalizing s i w with
  | nil => exact h
  | cons a rest ih =>
    unfold Sender.sendLoop
    rw [wp_bind]
    have hpause : wp (s.pause i) w (fun o w' => o = .ok () ∧ CKey A pw P b W w') := by
      unfold Sender.pause
      split
      · exact ⟨rfl, h.quiet (by rfl) (by rfl) (l := [.sleep s.cmd.delayMs]) (by rfl) (by simp)⟩
      · exact ⟨rfl, h⟩
    refine wp_mono hpause ?_
    rintro o w1 ⟨rfl, h1⟩
    simp only
    rw [wp_bind]
    refine wp_mono (sendData_spec A hash s a (rnd i) w1) ?_
    intro o w2 hat
    obtain ⟨h2, h3⟩ := h1.attempt (hrnd i) hs hat
    cases o with
    | crash => exact h2
    | err e => exact h2
    | ok x =>
      obtain ⟨s1, r⟩ := x
      have hs1 := h3 s1 r rfl
      simp only
      cases r with
      | error e =>
        simp only
        rw [wp_bind, wp_note]
        simp only
        rw [wp_bind]
        refine wp_mono (ih s1 (i + 1) _ hs1 (h2.quiet (by rfl) (by rfl) (l := [.sendFailed a.ip a.port]) (by rfl) (by simp))) ?_
        intro o w3 h3
        cases o <;> exact h3
      | ok u =>
        simp only
        exact ih s1 (i + 1) w2 hs1 h2

theorem init_key {A : Aead} {pw : Bool} {P : Path} {b : Bond} {W : List U128} {initial : U128} {w w' : World} {o : Out Counter}
    (hT : w.fs P = none → b.T ≤ initial.toNat) (h : CKey A pw P b W w) (hi : Init P initial w o w') :
    CKey A pw P b W w' ∧ ∀ c, o = .ok c → c.path = P ∧ b.T ≤ c.count.toNat := by
  have hro : ∀ {w1}, ReadOnly P w w1 → CKey A pw P b W w1 := by
    intro w1 hro
    obtain ⟨l, h1, h2⟩ := hro.log
    exact h.quiet (by rw [hro.fs]) (by rw [hro.pend]) h1 (fun ip port c b hm => by cases h2 _ hm)
  cases hi with
  | found c w' hr hd =>
    refine ⟨hro hr, ?_⟩
    intro c' hc'
    cases hc'
    refine ⟨rfl, ?_⟩
    rcases h.floor (w.fs P) (by unfold cands; simp) with hn | hf
    · unfold counterOnDisk at hd
      rw [hn] at hd
      cases hd
    · obtain ⟨v, hv, hle⟩ := counterOnDisk_of_holds hf
      rw [hd] at hv
      injection hv with hv
      show b.T ≤ c.toNat
      omega
  | seeded w1 w' hr habs hw => exact ⟨(hro hr).wrote (hT habs) hw, fun c hc => by cases hc; exact ⟨rfl, hT habs⟩⟩
  | seedFailed e w1 w' hr habs hw => exact ⟨(hro hr).wrote (hT habs) hw, nofun⟩
  | seedCrashed w1 w' hr habs hw => exact ⟨(hro hr).wrote (hT habs) hw, nofun⟩
  | refused e w' hr he => exact ⟨hro hr, nofun⟩
  | crashed w' hr => exact ⟨hro hr, nofun⟩

/-- Files and trace of `w'` agree with `w` as far as the counter is concerned; the clock only advances. -/
theorem acquireLock_key (A : Aead) (p P : Path) (hne : p ≠ P) (held : Bool) (pw : Bool) (b : Bond) (W : List U128) (w : World) (h : CKey A pw P b W w) :
    wp (acquireLock p held) w (fun _ w' => CKey A pw P b W w' ∧ w'.fs P = w.fs P ∧ w'.clock = w.clock ∧ wire w'.log = wire w.log) := by
  unfold acquireLock openCreate
  rw [wp_bind]
  let Q (w' : World) : Prop := CKey A pw P b W w' ∧ w'.fs P = w.fs P ∧ w'.clock = w.clock ∧ wire w'.log = wire w.log
  have step : ∀ {w1 w2 : World} (op : FileOp), Q w1 → w2.fs P = w1.fs P → w2.pend P = w1.pend P → w2.clock = w1.clock →
      w2.log = w1.log ++ [.file op p] → Q w2 := by
    rintro w1 w2 op ⟨a, b, c, d⟩ h1 h2 h3 h4
    exact ⟨a.quiet h1 h2 h4 (by simp), by rw [h1, b], by rw [h3, c], by rw [h4, wire_append, d]; simp [wire]⟩
  have h1 : ∀ o, Q { w with log := w.log ++ [.file .openTrunc p], oracle := o } := fun o => step .openTrunc ⟨h, rfl, rfl, rfl⟩ rfl rfl rfl rfl
  have h2 : ∀ w : World, Q w → Q (match w.fs p with
      | some _ => w
      | none => w.setEntry p (some ⟨[], w.newMode, false, .creator⟩)) := by
    rintro w ⟨a, b, c, d⟩
    split
    · exact ⟨a, b, c, d⟩
    · have e1 : (w.setEntry p (some ⟨[], w.newMode, false, .creator⟩)).fs P = w.fs P := by simp [World.setEntry, Ne.symm hne]
      refine ⟨a.quiet (l := []) e1 ?_ ?_ (by simp), by rw [e1, b], c, d⟩
      · simp [World.setEntry, Ne.symm hne]
      · simp [World.setEntry]
  have h3 : ∀ w : World, Q w → wp (do atomicCall (.file .lock p) id; if held then Act.throw .locked else pure ()) w (fun _ w' => Q w') := by
    intro w h
    rw [wp_bind]
    apply wp_atomicCall <;> intro o
    · simp only [id]
      split
      · exact step .lock h rfl rfl rfl rfl
      · exact step .lock h rfl rfl rfl rfl
    · exact step .lock h rfl rfl rfl rfl
    · exact step .lock h rfl rfl rfl rfl
    · exact step .lock h rfl rfl rfl rfl
  apply wp_atomicCall <;> intro o
  · exact h3 _ (h2 _ (h1 o))
  · exact h1 o
  · exact h1 o
  · exact h2 _ (h1 o)

theorem senderCreate_key (A : Aead) (dir : Path) (cmd : SendCmd) (env : SendEnv) (pw : Bool) (b : Bond) (W : List U128) (w : World)
    (hkey : ∀ t h, env.keyText = some t → CryptoHandler.create (trim t) = .ok h → h.id = b.k → h.key = b.key)
    (hT : w.fs (counterPath dir) = none → ∀ t, some t ∈ w.clock → b.T ≤ t.toNat) (h : CKey A pw (counterPath dir) b W w) :
    wp (Sender.create dir cmd env) w (fun o w' => CKey A pw (counterPath dir) b W w' ∧ ∀ s, o = .ok s → Bonded b (counterPath dir) s) := by
  unfold Sender.create
  rw [wp_bind, wp_ofExcept]
  cases ensurePort cmd.address DEFAULT_PORT with
  | error e => exact ⟨h, nofun⟩
  | ok address =>
    simp only
    rw [wp_bind, wp_ofExcept]
    cases parseIpOption cmd.ip with
    | error e => exact ⟨h, nofun⟩
    | ok srcIp =>
      simp only
      cases hkt : env.keyText with
      | none => exact ⟨h, nofun⟩
      | some key =>
        simp only
        rw [wp_bind, wp_ofExcept]
        cases hc : CryptoHandler.create (trim key) with
        | error e => exact ⟨h, nofun⟩
        | ok handler =>
          simp only
          rw [wp_bind]
          obtain ⟨_, hid, hkl⟩ := (create_ok_iff _ _).1 hc
          apply wp_nowNanos
          · intro now c hcl
            simp only
            rw [wp_bind]
            have h1 : CKey A pw (counterPath dir) b W { w with clock := c } := h.quiet (by rfl) (by rfl) (l := []) (by simp) (by simp)
            refine wp_mono (Counter.createAndInit_spec (counterPath dir) now _) ?_
            intro o w1 hi
            obtain ⟨h2, h3⟩ := init_key (w := { w with clock := c }) (fun hn => hT hn now (by rw [hcl]; simp)) h1 hi
            cases o with
            | crash => exact ⟨h2, nofun⟩
            | err e => exact ⟨h2, nofun⟩
            | ok ctr =>
              refine ⟨h2, ?_⟩
              intro s hs
              cases hs
              exact ⟨(h3 ctr rfl).1, hid, hkl, hkey key handler hkt hc, (h3 ctr rfl).2⟩
          · intro c
            exact ⟨h.quiet (by rfl) (by rfl) (l := []) (by simp) (by simp), nofun⟩

theorem runSend_key (A : Aead) (hash : List Char → U64) (dir : Path) (held : Bool) (cmd : SendCmd) (env : SendEnv) (pw : Bool) (b : Bond) (W : List U128) (w : World)
    (hkey : ∀ t h, env.keyText = some t → CryptoHandler.create (trim t) = .ok h → h.id = b.k → h.key = b.key)
    (hrnd : ∀ i iv, env.rnd i = some iv → iv.length = 12)
    (hT : w.fs (counterPath dir) = none → ∀ t, some t ∈ w.clock → b.T ≤ t.toNat) (h : CKey A pw (counterPath dir) b W w) :
    wp (runSend A hash dir held cmd env) w (fun _ w' => CKey A pw (counterPath dir) b W w') := by
  unfold runSend
  rw [wp_bind]
  refine wp_mono (acquireLock_key A _ _ (lock_ne_counter dir) held pw b W w h) ?_
  rintro o w1 ⟨h1, hf1, hc1, _⟩
  cases o with
  | crash => exact h1
  | err e => exact h1
  | ok u =>
    simp only
    rw [wp_bind]
    refine wp_mono (senderCreate_key A dir cmd env pw b W w1 hkey (by rw [hf1, hc1]; exact hT) h1) ?_
    rintro o w2 ⟨h2, h3⟩
    cases o with
    | crash => exact h2
    | err e => exact h2
    | ok s =>
      simp only
      unfold Sender.send
      rw [wp_bind, wp_ofExcept]
      cases getDestinationIps s.cmd.ipv4 s.cmd.ipv6 (env.resolve s.cmd.address) with
      | error e => exact h2
      | ok dsts =>
        simp only
        unfold Sender.sendToDestinations
        rw [wp_bind]
        refine wp_mono (sendLoop_key A hash env.rnd hrnd pw (counterPath dir) b W dsts s 0 w2 (h3 s rfl) h2) ?_
        intro o w3 h4
        cases o with
        | crash => exact h4
        | err e => exact h4
        | ok x =>
          simp only
          split <;> exact h4

theorem CKey.power {A : Aead} {P : Path} {b : Bond} {W : List U128} {w w' : World} (h : CKey A true P b W w) (hp : PowerLoss w w') : CKey A true P b W w' := by
  refine ⟨by rw [hp.log]; exact h.grows, ?_, by rw [hp.log]; exact h.above, by rw [hp.log]; exact h.made⟩
  intro f hf
  unfold cands at hf
  rw [if_pos rfl, hp.nothingPending] at hf
  simp at hf
  subst hf
  obtain ⟨g, hg, hsv⟩ := hp.entries P
  generalize hx : w'.fs P = x at hsv
  rcases h.floor g (by unfold cands; exact hg) with rfl | ⟨file, h1, h2, h3, h4⟩
  · cases hsv
    exact Or.inl rfl
  · subst h1
    right
    cases hsv with
    | synced _ hs => exact ⟨file, rfl, h2, h3, h4⟩
    | unsynced _ g hs => rw [h2 rfl] at hs; cases hs

theorem wp_and2 {m : Act α} {w : World} {P Q : Out α → World → Prop} (h1 : wp m w P) (h2 : wp m w Q) : wp m w (fun o w' => P o w' ∧ Q o w') := ⟨h1, h2⟩

/-- A reseed that does not lower the counter keeps both invariants. -/
theorem runReseed_keeps (A : Aead) (dir : Path) (held : Bool) (pw : Bool) (b : Bond) (W : List U128) (old : List Event) (w : World)
    (hT : ∀ t, some t ∈ w.clock → b.T ≤ t.toNat ∧ ∀ c ∈ wire w.log, c.toNat ≤ t.toNat)
    (h : CKey A pw (counterPath dir) b W w) (hi : CInvIf A pw (counterPath dir) [] old w) :
    wp (runReseed dir held) w (fun _ w' => CKey A pw (counterPath dir) b W w' ∧ CInvIf A pw (counterPath dir) [] old w') := by
  unfold runReseed
  rw [wp_bind]
  refine wp_mono (wp_and2 (acquireLock_key A _ _ (lock_ne_counter dir) held pw b W w h) (acquireLock_inv A _ _ (lock_ne_counter dir) held pw [] old w hi)) ?_
  rintro o w1 ⟨⟨h1, hf1, hc1, hw1⟩, hi1⟩
  cases o with
  | crash => exact ⟨h1, hi1⟩
  | err e => exact ⟨h1, hi1⟩
  | ok u =>
    simp only
    rw [wp_bind]
    have hq : ∀ c, CKey A pw (counterPath dir) b W { w1 with clock := c } ∧ CInvIf A pw (counterPath dir) [] old { w1 with clock := c } := fun c =>
      ⟨h1.quiet (by rfl) (by rfl) (l := []) (by simp) (by simp), fun hs =>
        ((hi1 hs).quiet (w' := { w1 with clock := c }) (by rfl) (by rfl) (l := []) (by simp) (by simp)).1⟩
    apply wp_nowNanos
    · intro now c hcl
      simp only
      unfold Counter.reseed
      obtain ⟨hTn, hwn⟩ := hT now (by rw [← hc1, hcl]; simp)
      refine wp_mono (Counter.write_spec ⟨counterPath dir, now⟩ _) ?_
      intro o w2 hw
      refine ⟨(hq c).1.wrote hTn hw, fun hs => ?_⟩
      obtain ⟨l, hl, _⟩ := hw.log
      rw [hl] at hs
      refine (((hq c).2 hs.mono).wrote ?_ hw).1
      intro x hx
      simp only [List.nil_append, List.mem_map] at hx
      obtain ⟨y, hy, rfl⟩ := hx
      exact hwn y (by rw [← hw1]; exact hy)
    · exact hq

theorem CStep.keeps {A : Aead} {hash : List Char → U64} {dir : Path} {pw : Bool} {b : Bond} {W : List U128} {old : List Event} {w w' : World} {e : CEv}
    (hst : CStep A hash dir w e w') (ha : ClientAssumed b dir w e) (hpw : e = .power → pw = true)
    (h : CKey A pw (counterPath dir) b W w) (hi : CInvIf A pw (counterPath dir) [] old w) :
    CKey A pw (counterPath dir) b W w' ∧ CInvIf A pw (counterPath dir) [] old w' := by
  have h0 : ∀ env, CKey A pw (counterPath dir) b W (w.withEnv env []) := fun env =>
    h.quiet (w' := w.withEnv env []) (by rfl) (by rfl) (l := []) (by simp [World.withEnv]) (by simp)
  have hi0 : ∀ env, CInvIf A pw (counterPath dir) [] old (w.withEnv env []) := fun env hs =>
    ((hi hs).quiet (w' := w.withEnv env []) (by rfl) (by rfl) (l := []) (by simp [World.withEnv]) (by simp)).1
  cases hst with
  | send env held cmd senv o _ hr =>
    obtain ⟨ha1, ha2, ha3⟩ := ha
    have := runSend_key A hash dir held cmd senv pw b W _ ha1 ha2 ha3 (h0 env)
    unfold wp at this
    rw [hr] at this
    exact ⟨this, (CStep.send w env held cmd senv o _ hr).inv nofun nofun hi⟩
  | reseed env held o _ hr =>
    have := runReseed_keeps A dir held pw b W old (w.withEnv env []) ha (h0 env) (hi0 env)
    unfold wp at this
    rw [hr] at this
    exact this
  | power _ hp =>
    have := hpw rfl
    subst this
    exact ⟨h.power hp, (CStep.power (hash := hash) w _ hp).inv nofun (fun _ => rfl) hi⟩
  | others _ hfs hpend hlog =>
    exact ⟨h.quiet hfs hpend (l := []) (by simp [hlog]) (by simp), (CStep.others (hash := hash) w _ hfs hpend hlog).inv nofun nofun hi⟩

end Ruroco
