import Verif.Lemmas.Blocklist
import Verif.Lemmas.SysOk
import Verif.Lemmas.Crypto
import Verif.Model.Server
import Verif.Spec.Terms.Server

namespace Ruroco

/-- Outcome of saving `m` at `path`. -/
structure Saved (path : Path) (m : BlMap) (o : Out Unit) (w w' : World) : Prop where
  frame : ∀ q, q ≠ path → ¬ IsTmpOf path q → w'.fs q = w.fs q ∧ ∀ f ∈ w'.pend q, f ∈ w.pend q
  umask : w'.umask = w.umask
  cur : w'.cur = w.cur
  log : ∃ l, w'.log = w.log ++ l ∧ FileEvents (fun q => q = path ∨ IsTmpOf path q) l
  result : (w'.fs path = w.fs path ∧ w'.pend path = w.pend path ∧ o ≠ .ok ()) ∨
    (DiskHolds (w'.fs path) m ∧ (∀ f ∈ w'.pend path, f ∈ w.fs path :: w.pend path) ∧ (o = .ok () ∨ o = .crash) ∧
      (o = .ok () → .dirSyncFailed path ∉ w'.log → w'.pend path = []))
  works : AllOk w → (∃ t c, w.clock = some t :: c) → m.length < 2 ^ 32 → o = .ok () ∧ AllOk w'

theorem wp_ofExcept (x : Except Err α) (w : World) (Q : Out α → World → Prop) :
    wp (Act.ofExcept x) w Q ↔ match x with
      | .ok a => Q (.ok a) w
      | .error e => Q (.err e) w := by
  cases x <;> rfl

/-- With working system calls, a clock, and fewer than 2^32 keys, saving the replay state succeeds. -/
theorem save_ok (b : Blocklist) (hb : b.Wf) (hlen : b.map.length < 2 ^ 32) (w : World) (h : AllOk w) (t : U128)
    (c : List (Option U128)) (hc : w.clock = some t :: c) :
    wp b.save w (fun o w' => o = .ok () ∧ AllOk w' ∧ w'.clock = c) := by
  unfold Blocklist.save
  rw [wp_bind, wp_ofExcept]
  have : encodeBl (b.order b.map) = .ok (0x91 :: mapHeader (b.order b.map).length ++ (b.order b.map).flatMap encEntry) := by
    unfold encodeBl
    rw [if_pos (by rw [(hb.order b.map).length_eq]; exact hlen)]
  rw [this]
  exact writeAtomicWithMode_ok _ _ _ _ h _ _ hc

theorem BlMap.length_insert {m : BlMap} {k : List Byte} {v : U128} (h : m.get k = some v) (c : U128) :
    (m.insert k c).length = m.length := by
  induction m with
  | nil => simp [BlMap.get] at h
  | cons e rest ih =>
    obtain ⟨a, b⟩ := e
    simp only [BlMap.get] at h
    simp only [BlMap.insert]
    split
    · simp
    · rename_i hne
      rw [if_neg hne] at h
      simp [ih h]

theorem save_spec (b : Blocklist) (hb : b.Wf) (w : World) : wp b.save w (fun o w' => Saved b.path b.map o w w') := by
  have hworks : AllOk w → (∃ t c, w.clock = some t :: c) → b.map.length < 2 ^ 32 → wp b.save w (fun o w' => o = .ok () ∧ AllOk w') :=
    fun h1 ⟨t, c, h2⟩ h3 => wp_mono (save_ok b hb h3 w h1 t c h2) (fun o w' h => ⟨h.1, h.2.1⟩)
  suffices h : wp b.save w (fun o w' => (AllOk w → (∃ t c, w.clock = some t :: c) → b.map.length < 2 ^ 32 → o = .ok () ∧ AllOk w') →
      Saved b.path b.map o w w') from h hworks
  clear hworks
  unfold Blocklist.save
  rw [wp_bind, wp_ofExcept]
  cases he : encodeBl (b.order b.map) with
  | error e =>
    intro hworks
    exact ⟨fun q _ _ => ⟨rfl, fun _ h => h⟩, rfl, rfl, ⟨[], by simp, by simp [FileEvents]⟩, Or.inl ⟨rfl, rfl, by simp⟩, hworks⟩
  | ok bytes =>
    simp only
    refine wp_mono (writeAtomic_spec b.path bytes w) ?_
    intro o w' h hworks
    refine ⟨h.frame, h.umask, h.cur, h.log, ?_, hworks⟩
    rcases h.result with h1 | ⟨⟨f, h1, h2, h3, _⟩, h4, h5, h6⟩
    · exact Or.inl h1
    · refine Or.inr ⟨⟨f, b.order b.map, h1, h3, ?_, BlMap.get_perm (hb.order _) hb.map.nodup, ?_⟩, h4, h5, ?_⟩
      · rw [h2]
        have := decodeBl_encodeBl (hb.map.perm (hb.order _)) he []
        rwa [List.append_nil] at this
      · rw [h2]
        exact encodeBl_length (hb.map.perm (hb.order _)).key_length he
      · intro ho hn
        apply h6 ho
        intro hm
        exact hn (List.mem_of_mem_drop hm)

/-! ## Sending to the commander -/

/-- Outcome of `send_command`: nothing but (at most two) connection events and at most one write of a prefix of the message. -/
structure Sent (counter : U128) (d : CommanderData) (o : Out Unit) (w w' : World) : Prop where
  fs : w'.fs = w.fs
  pend : w'.pend = w.pend
  umask : w'.umask = w.umask
  cur : w'.cur = w.cur
  clock : w'.clock = w.clock
  out : o = .ok () ∨ o = .crash
  log : ∃ n l, n ≤ 2 ∧ w'.log = w.log ++ List.replicate n .connect ++ l ∧
    (l = [] ∨ ∃ k, l = [.forward w.cur counter (d.toBytes.take k)])
  allOk : AllOk w → o = .ok () ∧
    w'.log = w.log ++ [.connect, .connect, .forward w.cur counter d.toBytes] ∧ AllOk w'

theorem toBytes_length (d : CommanderData) : d.toBytes.length = 24 := by simp [CommanderData.toBytes]

theorem sendCommand_spec (counter : U128) (d : CommanderData) (w : World) :
    wp (sendCommand counter d) w (fun o w' => Sent counter d o w w') := by
  have take24 : d.toBytes.take 24 = d.toBytes := List.take_of_length_le (by rw [toBytes_length]; exact Nat.le_refl _)
  unfold wp sendCommand writeToSocket atomicCall syscall Act.attempt
  simp only [bind, Act.bind, pure, Act.pure, id]
  rcases h1 : w.oracle with _ | ⟨c1, o1⟩
  · simp only
    exact ⟨rfl, rfl, rfl, rfl, rfl, Or.inl rfl, ⟨2, _, Nat.le_refl _, by simp; rfl, Or.inr ⟨24, by rw [take24]⟩⟩, fun _ => ⟨rfl, by simp, by simp [AllOk]⟩⟩
  · cases c1 with
    | err k =>
      simp only
      exact ⟨rfl, rfl, rfl, rfl, rfl, Or.inl rfl, ⟨1, [], by omega, by simp, Or.inl rfl⟩, fun h => by
        have := h (.err k) (by rw [h1]; simp); cases this⟩
    | crash k =>
      have hne : ¬ AllOk w := fun h => by
        have := h (.crash k) (by rw [h1]; simp); cases this
      simp only [ite_self]
      exact ⟨rfl, rfl, rfl, rfl, rfl, Or.inr rfl, ⟨1, [], by omega, by simp, Or.inl rfl⟩, fun h => absurd h hne⟩
    | ok =>
      simp only
      rcases o1 with _ | ⟨c2, o2⟩
      · simp only
        exact ⟨rfl, rfl, rfl, rfl, rfl, Or.inl rfl, ⟨2, _, Nat.le_refl _, by simp; rfl, Or.inr ⟨24, by rw [take24]⟩⟩, fun _ => ⟨rfl, by simp, by simp [AllOk]⟩⟩
      · cases c2 with
        | err k =>
          simp only
          exact ⟨rfl, rfl, rfl, rfl, rfl, Or.inl rfl, ⟨2, [], by omega, by simp, Or.inl rfl⟩, fun h => by
            have := h (.err k) (by rw [h1]; simp); cases this⟩
        | crash k =>
          have hne : ¬ AllOk w := fun h => by
            have := h (.crash k) (by rw [h1]; simp); cases this
          simp only [ite_self]
          exact ⟨rfl, rfl, rfl, rfl, rfl, Or.inr rfl, ⟨2, [], by omega, by simp, Or.inl rfl⟩, fun h => absurd h hne⟩
        | ok =>
          simp only
          rcases o2 with _ | ⟨c3, o3⟩
          · simp only
            exact ⟨rfl, rfl, rfl, rfl, rfl, Or.inl rfl, ⟨2, _, Nat.le_refl _, by simp; rfl, Or.inr ⟨24, by rw [take24]⟩⟩, fun _ => ⟨rfl, by simp, by simp [AllOk]⟩⟩
          · cases c3 with
            | ok =>
              simp only
              exact ⟨rfl, rfl, rfl, rfl, rfl, Or.inl rfl, ⟨2, _, Nat.le_refl _, by simp; rfl, Or.inr ⟨24, by rw [take24]⟩⟩,
                fun h => ⟨rfl, by simp, fun c hc => h c (by rw [h1]; simp [hc])⟩⟩
            | err k =>
              simp only
              exact ⟨rfl, rfl, rfl, rfl, rfl, Or.inl rfl, ⟨2, _, Nat.le_refl _, by simp, Or.inr ⟨k, rfl⟩⟩, fun h => by
                have := h (.err k) (by rw [h1]; simp); cases this⟩
            | crash k =>
              simp only
              exact ⟨rfl, rfl, rfl, rfl, rfl, Or.inr rfl, ⟨2, _, Nat.le_refl _, by simp, Or.inr ⟨k, rfl⟩⟩, fun h => by
                have := h (.crash k) (by rw [h1]; simp); cases this⟩

/-! ## Updating the replay state -/

theorem wp_updateBlockList (s : Server) (hb : s.bl.Wf) (k : List Byte) (hk : k.length = 8) (c : U128) (w : World)
    (Q : Out (Server × Except Err Unit) → World → Prop)
    (hok : ∀ w', Saved s.bl.path (s.bl.map.insert k c) (.ok ()) w w' → Q (.ok ({ s with bl := s.bl.upsert k c }, .ok ())) w')
    (herr : ∀ e w', Saved s.bl.path (s.bl.map.insert k c) (.err e) w w' → Q (.ok (s, .error .save)) w')
    (hcrash : ∀ w', Saved s.bl.path (s.bl.map.insert k c) .crash w w' → Q .crash w') :
    wp (s.updateBlockList k c) w Q := by
  unfold Server.updateBlockList
  simp only
  rw [wp_bind, wp_attempt]
  refine wp_mono (save_spec (s.bl.upsert k c) ⟨hb.map.insert hk c, hb.order⟩ w) ?_
  intro o w' h
  cases o with
  | ok a => exact hok w' h
  | crash => exact hcrash w' h
  | err e =>
    simp only [wp_pure]
    have h' := herr e w' h
    cases hg : s.bl.getCounter k with
    | none =>
      have : ({ s with bl := (s.bl.upsert k c).remove k } : Server) = s := by
        simp only [Blocklist.remove, Blocklist.upsert, BlMap.remove_restore c hg]
      simp only [this]
      exact h'
    | some prev =>
      have : ({ s with bl := (s.bl.upsert k c).upsert k prev } : Server) = s := by
        simp only [Blocklist.upsert, BlMap.insert_restore c hg]
      simp only [this]
      exact h'

/-! ## Validation -/

theorem maxFutureCounter_toNat (now : U128) (skew : U64) (c : U128) :
    c.toNat ≤ (maxFutureCounter now skew).toNat ↔ c.toNat ≤ now.toNat + skew.toNat * 1000000000 := by
  have h1 := c.isLt
  have h2 := skew.isLt
  have h3 : (BitVec.ofNat 128 (skew.toNat * 1000000000)).toNat = skew.toNat * 1000000000 := by
    simp only [BitVec.toNat_ofNat]; omega
  unfold maxFutureCounter satAdd
  rw [h3]
  split
  · rw [BitVec.toNat_add, h3]
    omega
  · rw [BitVec.toNat_allOnes]
    omega

theorem isCounterReplayed_false {b : Blocklist} {k : List Byte} {c : U128} :
    b.isCounterReplayed k c = false ↔ ∃ v, b.map.get k = some v ∧ v.toNat < c.toNat := by
  unfold Blocklist.isCounterReplayed
  cases h : b.map.get k with
  | none => simp
  | some v => simp

/-- The checks of `validate_and_send_command` all pass. -/
structure Passes (s : Server) (k : List Byte) (now : U128) (src : Ip) (d : ClientData) : Prop where
  fresh : ∃ v, s.bl.map.get k = some v ∧ v.toNat < d.counter.toNat
  notFuture : d.counter.toNat ≤ now.toNat + s.cfg.skewSeconds.toNat * 1000000000
  dst : d.dstIp ∈ s.cfg.ips
  src : d.strict = true → ∀ ip, d.srcIp = some ip → ip = src

theorem isSourceIpInvalid_false {d : ClientData} {src : Ip} :
    d.isSourceIpInvalid src = false ↔ (d.strict = true → ∀ ip, d.srcIp = some ip → ip = src) := by
  unfold ClientData.isSourceIpInvalid
  cases d.strict <;> cases d.srcIp <;> simp

/-- The part of `validate_and_send_command` after all checks. -/
def Server.act (s : Server) (keyId : List Byte) (src : Ip) (d : ClientData) : Act (Server × Except Err Unit) := do
  let (s', r) ← s.updateBlockList keyId d.counter
  match r with
  | .error e => pure (s', .error e)
  | .ok () => do
    sendCommand d.counter { cmdHash := d.cmdHash, ip := d.srcIp.getD src }
    pure (s', .ok ())

/-- Decision part of `validate_and_send_command`, given the clock reading. -/
inductive Decision (s : Server) (k pt : List Byte) (now : U128) (src : Ip) : Except Err ClientData → Prop
  | accept (d : ClientData) (hd : ClientData.deserialize pt = .ok d) (hp : Passes s k now src d) : Decision s k pt now src (.ok d)
  | reject (e : Err) (h : ∀ d, ClientData.deserialize pt = .ok d → ¬ Passes s k now src d) (he : e ≠ .save) :
      Decision s k pt now src (.error e)

theorem wp_validate (s : Server) (k pt : List Byte) (src : Ip) (w : World) (Q : Out (Server × Except Err Unit) → World → Prop)
    (hclock : ∀ c, (∀ t c', w.clock ≠ some t :: c') → Q (.ok (s, .error .clock)) { w with clock := c })
    (hrej : ∀ now c e, w.clock = some now :: c → Decision s k pt now src (.error e) → Q (.ok (s, .error e)) { w with clock := c })
    (hacc : ∀ now c d, w.clock = some now :: c → ClientData.deserialize pt = .ok d → Passes s k now src d →
      wp (s.act k src d) { w with clock := c } Q) :
    wp (s.validateAndSend k pt src) w Q := by
  unfold Server.validateAndSend
  rw [wp_bind, wp_attempt]
  unfold wp nowNanos
  rcases hcl : w.clock with _ | ⟨t, c⟩
  · have := hclock [] (by rw [hcl]; simp)
    rw [show ({ w with clock := [] } : World) = w by rw [← hcl]] at this
    exact this
  · cases t with
    | none => exact hclock c (by rw [hcl]; simp)
    | some now =>
      simp only
      have rej := hrej now c
      have acc := hacc now c
      generalize ({ w with clock := c } : World) = w1 at rej acc
      show wp _ w1 Q
      cases hd : ClientData.deserialize pt with
      | error e =>
        simp only [wp_pure]
        refine rej e hcl (.reject e (fun d hd' => by rw [hd] at hd'; cases hd') ?_)
        intro he; subst he
        unfold ClientData.deserialize at hd
        split at hd
        · cases hd
        · split at hd <;> cases hd
      | ok d =>
        have hd' : ∀ d', ClientData.deserialize pt = .ok d' → d' = d := fun d' h => by
          rw [hd] at h; exact (Except.ok.inj h).symm
        simp only
        split
        · rename_i hr
          rw [wp_pure]
          refine rej _ hcl (.reject _ (fun d' h hp => ?_) (by simp))
          rw [hd' d' h] at hp
          have := isCounterReplayed_false.2 hp.fresh
          rw [hr] at this; cases this
        · rename_i hr
          have hfresh := isCounterReplayed_false.1 (by simpa using hr)
          split
          · rename_i hf
            rw [wp_pure]
            refine rej _ hcl (.reject _ (fun d' h hp => ?_) (by simp))
            rw [hd' d' h] at hp
            have := (maxFutureCounter_toNat _ _ _).2 hp.notFuture
            omega
          · rename_i hf
            have hfut := (maxFutureCounter_toNat _ _ _).1 (Nat.le_of_not_gt hf)
            split
            · rename_i hi
              rw [wp_pure]
              refine rej _ hcl (.reject _ (fun d' h hp => ?_) (by simp))
              rw [hd' d' h] at hp
              have hm := hp.dst
              simp at hi
              exact hi hm
            · rename_i hi
              have hdst : d.dstIp ∈ s.cfg.ips := by simpa using hi
              split
              · rename_i hs
                rw [wp_pure]
                refine rej _ hcl (.reject _ (fun d' h hp => ?_) (by simp))
                rw [hd' d' h] at hp
                have := isSourceIpInvalid_false.2 hp.src
                rw [hs] at this; cases this
              · rename_i hs
                have hsrc := isSourceIpInvalid_false.1 (by simpa using hs)
                exact acc d hcl hd ⟨hfresh, hfut, hdst, hsrc⟩

/-- The action part: all outcomes. -/
theorem wp_act (s : Server) (hb : s.bl.Wf) (k : List Byte) (hk : k.length = 8) (src : Ip) (d : ClientData) (w : World)
    (Q : Out (Server × Except Err Unit) → World → Prop)
    (hsaveErr : ∀ e w', Saved s.bl.path (s.bl.map.insert k d.counter) (.err e) w w' → Q (.ok (s, .error .save)) w')
    (hsaveCrash : ∀ w', Saved s.bl.path (s.bl.map.insert k d.counter) .crash w w' → Q .crash w')
    (hsent : ∀ w1 o w', Saved s.bl.path (s.bl.map.insert k d.counter) (.ok ()) w w1 →
      Sent d.counter { cmdHash := d.cmdHash, ip := d.srcIp.getD src } o w1 w' →
      Q (match o with
        | .crash => .crash
        | _ => .ok ({ s with bl := s.bl.upsert k d.counter }, .ok ())) w') :
    wp (s.act k src d) w Q := by
  unfold Server.act
  rw [wp_bind]
  apply wp_updateBlockList s hb k hk d.counter w
  · intro w1 h1
    simp only
    rw [wp_bind]
    refine wp_mono (sendCommand_spec _ _ w1) ?_
    intro o w' h2
    have := hsent w1 o w' h1 h2
    rcases h2.out with rfl | rfl
    · simpa only [wp_pure] using this
    · exact this
  · intro e w' h; exact hsaveErr e w' h
  · intro w' h; exact hsaveCrash w' h

/-! ## One iteration -/

/-- What the server extracts from a datagram before validating: key id and plaintext. -/
def Authenticates (A : Aead) (s : Server) (dg k pt : List Byte) : Prop :=
  MSG_SIZE ≤ dg.length ∧ k = dg.take 8 ∧ ∃ h, s.handlers.get k = some h ∧ h.decrypt A ((dg.take 94).drop 8) = .ok pt

theorem Authenticates.key_length {A : Aead} {s : Server} {dg k pt : List Byte} (h : Authenticates A s dg k pt) : k.length = 8 := by
  obtain ⟨h1, rfl, _⟩ := h
  simp [MSG_SIZE] at h1 ⊢; omega

theorem wp_iteration (A : Aead) (s : Server) (dg : List Byte) (src : Ip) (rd : Readings) (w : World)
    (Q : Out (Server × Except Err Unit) → World → Prop)
    (hrej : ∀ e rl, e ≠ .save →
      ((∃ x, s.rl.check (normalizeIp src) s.cfg.maxPerIp s.cfg.maxGlobal rd = (.error x, rl)) ∨
        (rl = s.rl ∧ dg.length < 94) ∨
        (s.rl.check (normalizeIp src) s.cfg.maxPerIp s.cfg.maxGlobal rd = (.ok (), rl) ∧ ∀ k pt, ¬ Authenticates A s dg k pt)) →
      Q (.ok ({ s with rl }, .error e)) w)
    (hval : ∀ rl k pt, s.rl.check (normalizeIp src) s.cfg.maxPerIp s.cfg.maxGlobal rd = (.ok (), rl) →
      Authenticates A s dg k pt → wp (({ s with rl } : Server).validateAndSend k pt (normalizeIp src)) w Q) :
    wp (s.iteration A dg src rd) w Q := by
  unfold Server.iteration
  simp only
  split
  · rename_i hl
    rw [wp_pure]
    have : dg.length < 94 := by simp [MSG_SIZE] at hl; omega
    exact hrej _ s.rl (by simp) (Or.inr (Or.inl ⟨rfl, this⟩))
  · rename_i hl
    have hl94 : MSG_SIZE ≤ dg.length := by simp [MSG_SIZE] at hl ⊢; omega
    rcases hv : s.rl.check (normalizeIp src) s.cfg.maxPerIp s.cfg.maxGlobal rd with ⟨v, rl⟩
    simp only
    cases v with
    | error e =>
      simp only [wp_pure]
      refine hrej e rl ?_ (Or.inl ⟨e, hv⟩)
      rintro rfl
      unfold RateLimiter.check at hv
      simp only at hv
      split at hv
      · cases hv
      · split at hv <;> cases hv
    | ok u =>
      simp only
      have htk : (dg.take MSG_SIZE).take KEY_ID_SIZE = dg.take 8 := by
        rw [List.take_take]; rfl
      cases hd : ({ s with rl } : Server).decryptMsg A (dg.take MSG_SIZE) with
      | error e =>
        simp only [wp_pure]
        unfold Server.decryptMsg decode at hd
        simp only [htk] at hd
        have hna : (∀ k pt, ¬ Authenticates A s dg k pt) := by
          rintro k pt ⟨_, rfl, h, hg, hdec⟩
          simp only [hg] at hd
          have : h.decrypt A ((dg.take MSG_SIZE).drop KEY_ID_SIZE) = .ok pt := hdec
          rw [this] at hd; cases hd
        refine hrej e rl ?_ (Or.inr (Or.inr ⟨hv, hna⟩))
        rintro rfl
        split at hd
        · cases hd
        · split at hd
          · rename_i e' hdec
            unfold CryptoHandler.decrypt at hdec
            simp only at hdec
            split at hdec
            · cases hdec; cases hd
            · split at hdec
              · cases hdec; cases hd
              · cases hdec
          · cases hd
      | ok p =>
        obtain ⟨k, pt⟩ := p
        simp only
        unfold Server.decryptMsg decode at hd
        simp only [htk] at hd
        split at hd
        · cases hd
        · rename_i h hg
          split at hd
          · cases hd
          · rename_i p hdec
            simp at hd
            obtain ⟨rfl, rfl⟩ := hd
            exact hval rl _ _ hv ⟨hl94, rfl, h, hg, hdec⟩

end Ruroco
