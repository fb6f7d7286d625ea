import Verif.Props.AtMostOnce
import Verif.Props.Reseed
import Verif.Props.SendContent
import Verif.Spec.Nonce
import Verif.Spec.Terms.Nonce

/-! # C91: every datagram is sealed with a nonce of its own -/

namespace Ruroco

open Spec (datagrams nonceOf nonces draws TwelveEach NoTwoAlike OneKey Seals wire)

theorem nonces_append (a b : List Event) : nonces (a ++ b) = nonces a ++ nonces b := by unfold nonces; rw [datagrams_append, List.map_append]

/-- The trace gained datagrams whose nonces are draws `i ≤ j < k`, in the order of the draws. -/
def DrewIn (rnd : Nat → Option (List Byte)) (i k : Nat) (w w' : World) : Prop :=
  ∃ (l : List (List Byte)) (js : List Nat), nonces w'.log = nonces w.log ++ l ∧ js.Pairwise (· < ·) ∧ (∀ j ∈ js, i ≤ j ∧ j < k) ∧ l.map some = js.map rnd

theorem DrewIn.of_eq {rnd : Nat → Option (List Byte)} {i k : Nat} {w w' : World} (h : datagrams w'.log = datagrams w.log) : DrewIn rnd i k w w' :=
  ⟨[], [], by simp [nonces, h], .nil, nofun, rfl⟩

theorem DrewIn.trans {rnd : Nat → Option (List Byte)} {i j k : Nat} {w w1 w' : World} (h : DrewIn rnd i j w w1) (h' : DrewIn rnd j k w1 w') (hij : i ≤ j) (hjk : j ≤ k) : DrewIn rnd i k w w' := by
  obtain ⟨l, js, h1, h2, h3, h4⟩ := h
  obtain ⟨l', js', h1', h2', h3', h4'⟩ := h'
  refine ⟨l ++ l', js ++ js', by rw [h1', h1, List.append_assoc], ?_, ?_, by rw [List.map_append, List.map_append, h4, h4']⟩
  · exact List.pairwise_append.2 ⟨h2, h2', fun a ha b hb => Nat.lt_of_lt_of_le (h3 a ha).2 (h3' b hb).1⟩
  · intro x hx
    rcases List.mem_append.1 hx with hx | hx
    · exact ⟨(h3 x hx).1, Nat.lt_of_lt_of_le (h3 x hx).2 hjk⟩
    · exact ⟨Nat.le_trans hij (h3' x hx).1, (h3' x hx).2⟩

/-- The nonce of a datagram is the draw it was made with. -/
theorem encode_nonce {A : Aead} {h : CryptoHandler} (hid : h.id.length = 8) {rnd : Option (List Byte)} (hrnd : ∀ iv, rnd = some iv → iv.length = 12) {data bytes : List Byte}
    (he : encode A h rnd data = .ok bytes) : rnd = some (nonceOf bytes) := by
  unfold encode CryptoHandler.encrypt at he
  cases rnd with
  | none => cases he
  | some iv =>
    have hiv := hrnd iv rfl
    simp only at he
    by_cases hl : (A.enc h.key iv data).2.length ≠ PLAINTEXT_SIZE
    · rw [if_pos hl] at he; cases he
    · rw [if_neg hl] at he
      injection he with he
      subst he
      unfold nonceOf
      rw [← hid, List.drop_left, List.append_assoc, ← hiv, List.take_left]

theorem attempt_draws {A : Aead} {hash : List Char → U64} {s : Sender} (hid : s.handler.id.length = 8) {a : SockAddr} {rnd : Nat → Option (List Byte)}
    (hrnd : ∀ i iv, rnd i = some iv → iv.length = 12) {i : Nat} {w w' : World} {o : Out (Sender × Except Err Unit)} (h : Attempt A hash s a (rnd i) w o w') : DrewIn rnd i (i + 1) w w' := by
  have h0 : ∀ {o w1}, WroteAtomic s.counter.path (beBytes 16 s.bump.counter.count.toNat) none o { w with log := w.log ++ [.sendTo a.ip a.port] } w1 →
      datagrams w1.log = datagrams w.log := by
    intro o w1 hw
    obtain ⟨l, h1, h2⟩ := hw.log
    rw [h1, datagrams_append, datagrams_fileEvents h2]
    simp [datagrams]
  cases h with
  | overflow hroom w' hfs hpend hlog =>
    apply DrewIn.of_eq
    rw [hlog, datagrams_append]
    simp [datagrams]
  | writeFailed hroom e w' h => exact DrewIn.of_eq (h0 h)
  | writeCrashed hroom w' h => exact DrewIn.of_eq (h0 h)
  | encryptFailed hroom e w' henc h => exact DrewIn.of_eq (h0 h)
  | net hroom bytes w1 w' henc h hfs hpend sent l hl hlog o ho =>
    obtain ⟨n, rfl⟩ := hl.shape
    cases sent with
    | false =>
      apply DrewIn.of_eq
      rw [hlog, datagrams_append, h0 h, datagrams_append, datagrams_replicate_socket]
      simp [datagrams]
    | true =>
      refine ⟨[nonceOf bytes], [i], ?_, List.pairwise_singleton .., by simp, by simp [encode_nonce hid (hrnd i) henc]⟩
      unfold nonces
      rw [hlog, datagrams_append, h0 h, datagrams_append, datagrams_replicate_socket]
      simp [datagrams]

theorem sendLoop_draws (A : Aead) (hash : List Char → U64) (rnd : Nat → Option (List Byte)) (hrnd : ∀ i iv, rnd i = some iv → iv.length = 12) (dsts : List SockAddr) (s : Sender)
    (hid : s.handler.id.length = 8) (i : Nat) (w : World) : wp (s.sendLoop A hash rnd i dsts) w (fun _ w' => DrewIn rnd i (i + dsts.length) w w') := by
  induction dsts generalizing s i w with
  | nil => exact DrewIn.of_eq rfl
  | cons a rest ih =>
    unfold Sender.sendLoop
    rw [wp_bind]
    have hpause : wp (s.pause i) w (fun o w' => o = .ok () ∧ DrewIn rnd i i w w') := by
      unfold Sender.pause
      split
      · exact ⟨rfl, DrewIn.of_eq (by simp [note, datagrams])⟩
      · exact ⟨rfl, DrewIn.of_eq rfl⟩
    refine wp_mono hpause ?_
    rintro o w1 ⟨rfl, hg1⟩
    simp only
    rw [wp_bind]
    refine wp_mono (wp_and (sendData_spec A hash s a (rnd i) w1) (sendData_frame A hash s a (rnd i) w1)) ?_
    rintro o w2 ⟨hat, hf⟩
    have hg2 := hg1.trans (attempt_draws hid hrnd hat) (Nat.le_refl _) (by omega)
    have e : i + (a :: rest).length = i + 1 + rest.length := by simp; omega
    rw [e]
    have hstop : DrewIn rnd i (i + 1 + rest.length) w w2 := hg2.trans (DrewIn.of_eq rfl) (by omega) (by omega)
    cases o with
    | crash => exact hstop
    | err e => exact hstop
    | ok x =>
      obtain ⟨s1, r⟩ := x
      have hid1 : s1.handler.id.length = 8 := by rw [(hf s1 r rfl).1]; exact hid
      simp only
      cases r with
      | error e =>
        simp only
        rw [wp_bind, wp_note]
        simp only
        rw [wp_bind]
        refine wp_mono (ih s1 hid1 (i + 1) _) ?_
        intro o w3 h3
        have hn : DrewIn rnd (i + 1) (i + 1) w2 { w2 with log := w2.log ++ [.sendFailed a.ip a.port] } := DrewIn.of_eq (by simp [datagrams])
        have := (hg2.trans hn (by omega) (by omega)).trans h3 (by omega) (by omega)
        cases o <;> exact this
      | ok u =>
        simp only
        refine wp_mono (ih s1 hid1 (i + 1) w2) ?_
        intro o w3 h3
        exact hg2.trans h3 (by omega) (by omega)

theorem noUdp_datagrams {w w' : World} (h : Logs (UdpOnly fun _ _ _ _ => False) w w') : datagrams w'.log = datagrams w.log := by
  obtain ⟨l, h1, h2⟩ := h
  rw [h1, datagrams_append]
  have : datagrams l = [] := by
    unfold datagrams
    rw [List.filterMap_eq_nil_iff]
    intro e he
    split
    · exact (h2 _ he _ _ _ _ rfl).elim
    · rfl
  rw [this, List.append_nil]

theorem runSend_draws (A : Aead) (hash : List Char → U64) (dir : Path) (held : Bool) (cmd : SendCmd) (env : SendEnv) (hrnd : ∀ i iv, env.rnd i = some iv → iv.length = 12) (w : World) :
    wp (runSend A hash dir held cmd env) w (fun _ w' => ∃ n, DrewIn env.rnd 0 n w w') := by
  unfold runSend
  rw [wp_bind]
  have h1 : wp (acquireLock (dir ++ "/client.lock".toList) held) w (fun _ w' => Logs (UdpOnly fun _ _ _ _ => False) w w') := logs_clientLock _ _ _ w
  refine wp_mono h1 ?_
  intro o w1 h1
  have h1 := noUdp_datagrams h1
  cases o with
  | err e => exact ⟨0, DrewIn.of_eq h1⟩
  | crash => exact ⟨0, DrewIn.of_eq h1⟩
  | ok u =>
    simp only
    rw [wp_bind]
    have h2 : wp (Sender.create dir cmd env) w1 (fun _ w' => Logs (UdpOnly fun _ _ _ _ => False) w1 w') := create_logs _ dir cmd env w1
    refine wp_mono (wp_and h2 (create_frame dir cmd env w1)) ?_
    rintro o w2 ⟨h2, hf⟩
    have h12 := (noUdp_datagrams h2).trans h1
    cases o with
    | err e => exact ⟨0, DrewIn.of_eq h12⟩
    | crash => exact ⟨0, DrewIn.of_eq h12⟩
    | ok s =>
      obtain ⟨key, address, _, _, _, _, hh⟩ := hf s rfl
      have hid := ((create_ok_iff _ _).1 hh).2.1
      simp only
      unfold Sender.send
      rw [wp_bind, wp_ofExcept]
      cases getDestinationIps s.cmd.ipv4 s.cmd.ipv6 (env.resolve s.cmd.address) with
      | error e => exact ⟨0, DrewIn.of_eq h12⟩
      | ok dsts =>
        simp only
        unfold Sender.sendToDestinations
        rw [wp_bind]
        refine wp_mono (sendLoop_draws A hash env.rnd hrnd dsts s hid 0 w2) ?_
        intro o w3 h3
        have h123 : ∃ n, DrewIn env.rnd 0 n w w3 := ⟨0 + dsts.length, (DrewIn.of_eq (k := 0) h12).trans h3 (by omega) (by omega)⟩
        cases o with
        | err e => exact h123
        | crash => exact h123
        | ok x =>
          simp only
          split <;> exact h123

/-- **C91a.** In one `send`, whatever fails and wherever it dies, every datagram is made with fresh random bytes: the nonces on the wire are draws of the generator, a different draw for each, in
the order of drawing. Where the generator fails, nothing is sent. -/
theorem C91_one_draw_each (A : Aead) (hash : List Char → U64) (dir : Path) (held : Bool) (cmd : SendCmd) (env : SendEnv) (w w' : World) (o : Out Unit)
    (hrnd : ∀ i iv, env.rnd i = some iv → iv.length = 12) (hrun : runSend A hash dir held cmd env w = (o, w')) :
    ∃ (new : List (List Byte)) (js : List Nat), nonces w'.log = nonces w.log ++ new ∧ js.Pairwise (· < ·) ∧ new.map some = js.map env.rnd := by
  have h := runSend_draws A hash dir held cmd env hrnd w
  unfold wp at h
  rw [hrun] at h
  obtain ⟨n, l, js, h1, h2, _, h3⟩ := h
  exact ⟨l, js, h1, h2, h3⟩

theorem draws_append_left {evs : List CEv} (e : CEv) {k : Nat} (h : k < evs.length) (i : Nat) : draws (evs ++ [e]) k i = draws evs k i := by
  unfold draws
  rw [List.getElem?_append_left h]

theorem draws_last (evs : List CEv) (env : Env) (held : Bool) (cmd : SendCmd) (senv : SendEnv) (i : Nat) : draws (evs ++ [.send env held cmd senv]) evs.length i = senv.rnd i := by
  unfold draws
  rw [List.getElem?_append_right (Nat.le_refl _)]
  simp

/-- **C91b.** Over every history of sends, reseeds, power losses and other processes: the nonces of all datagrams ever sent are draws of the generator, each used once, in the order of
drawing. -/
theorem C91_no_draw_used_twice (A : Aead) (hash : List Char → U64) (dir : Path) (w w' : World) (evs : List CEv) (hr : CRun A hash dir w evs w') (h12 : TwelveEach evs) :
    ∃ (new : List (List Byte)) (js : List (Nat × Nat)), nonces w'.log = nonces w.log ++ new ∧ js.Pairwise Earlier ∧ new.map some = js.map fun j => draws evs j.1 j.2 := by
  suffices H : ∃ (new : List (List Byte)) (js : List (Nat × Nat)), nonces w'.log = nonces w.log ++ new ∧ js.Pairwise Earlier ∧ (∀ j ∈ js, j.1 < evs.length) ∧
      new.map some = js.map fun j => draws evs j.1 j.2 by
    obtain ⟨new, js, h1, h2, _, h3⟩ := H
    exact ⟨new, js, h1, h2, h3⟩
  induction hr with
  | nil => exact ⟨[], [], by simp, .nil, nofun, rfl⟩
  | snoc hr hs ih =>
    rename_i w1 w2 evs e
    obtain ⟨new, js, h1, h2, h3, h4⟩ := ih (fun k i iv hd => by
      by_cases hk : k < evs.length
      · exact h12 k i iv (by rw [draws_append_left e hk]; exact hd)
      · unfold draws at hd
        rw [List.getElem?_eq_none (by omega)] at hd
        cases hd)
    have hlen : ∀ j ∈ js, j.1 < (evs ++ [e]).length := fun j hj => by have := h3 j hj; simp; omega
    have hmap : (js.map fun j => draws (evs ++ [e]) j.1 j.2) = js.map fun j => draws evs j.1 j.2 := List.map_congr_left fun j hj => draws_append_left e (h3 j hj) j.2
    have same : datagrams w2.log = datagrams w1.log → ∃ (new : List (List Byte)) (js : List (Nat × Nat)), nonces w2.log = nonces w.log ++ new ∧ js.Pairwise Earlier ∧
        (∀ j ∈ js, j.1 < (evs ++ [e]).length) ∧ new.map some = js.map fun j => draws (evs ++ [e]) j.1 j.2 := by
      intro hd
      refine ⟨new, js, ?_, h2, hlen, by rw [hmap, h4]⟩
      rw [← h1]
      unfold nonces
      rw [hd]
    cases hs with
    | send env held cmd senv o _ h =>
      have hd := runSend_draws A hash dir held cmd senv (fun i iv hi => h12 evs.length i iv (by rw [draws_last]; exact hi)) (w1.withEnv env [])
      unfold wp at hd
      rw [h] at hd
      obtain ⟨n, l, ks, g1, g2, _, g4⟩ := hd
      refine ⟨new ++ l, js ++ ks.map fun i => (evs.length, i), ?_, ?_, ?_, ?_⟩
      · rw [g1]
        show nonces w1.log ++ l = _
        rw [h1, List.append_assoc]
      · refine List.pairwise_append.2 ⟨h2, ?_, ?_⟩
        · rw [List.pairwise_map]
          exact g2.imp fun hab => Or.inr ⟨rfl, hab⟩
        · intro a ha b hb
          obtain ⟨i, _, rfl⟩ := List.mem_map.1 hb
          exact Or.inl (h3 a ha)
      · intro j hj
        rcases List.mem_append.1 hj with hj | hj
        · exact hlen j hj
        · obtain ⟨i, _, rfl⟩ := List.mem_map.1 hj
          simp
      · rw [List.map_append, List.map_append, hmap, h4, g4, List.map_map]
        congr 1
        exact List.map_congr_left fun i _ => (draws_last evs env held cmd senv i).symm
    | reseed env held o _ h =>
      refine same ?_
      have hsp := runReseed_spec dir held (w1.withEnv env [])
      unfold wp at hsp
      rw [h] at hsp
      obtain ⟨⟨l, hl, hn⟩, _⟩ := hsp
      exact noUdp_datagrams (w := w1.withEnv env []) ⟨l, hl, fun ev he ip port c bytes hev => hn ip port c bytes (hev ▸ he)⟩
    | power _ h => exact same (by rw [h.log])
    | others _ hfs hpend hlog => exact same (by rw [hlog])

theorem nodup_draws {f : Nat × Nat → Option (List Byte)} (hinj : ∀ a b iv, f a = some iv → f b = some iv → a = b) : ∀ (new : List (List Byte)) (js : List (Nat × Nat)),
    js.Pairwise Earlier → new.map some = js.map f → new.Nodup := by
  intro new
  induction new with
  | nil => exact fun _ _ _ => .nil
  | cons x rest ih =>
    intro js hp hm
    cases js with
    | nil => cases hm
    | cons j ks =>
      simp only [List.map_cons, List.cons.injEq] at hm
      cases hp with
      | cons hj hp =>
        refine List.nodup_cons.2 ⟨fun hx => ?_, ih ks hp hm.2⟩
        have : some x ∈ ks.map f := by rw [← hm.2]; exact List.mem_map_of_mem hx
        obtain ⟨k, hk, hfk⟩ := List.mem_map.1 this
        have := hinj j k x hm.1.symm hfk
        subst this
        rcases hj j hk with h | h <;> omega

/-- **C91c.** So a nonce is never used for two datagrams unless the generator gives the same twelve bytes twice. -/
theorem C91_nonces_differ (A : Aead) (hash : List Char → U64) (dir : Path) (w w' : World) (evs : List CEv) (hnone : datagrams w.log = []) (hr : CRun A hash dir w evs w')
    (h12 : TwelveEach evs) (hne : NoTwoAlike evs) : (nonces w'.log).Nodup := by
  obtain ⟨new, js, h1, h2, h3⟩ := C91_no_draw_used_twice A hash dir w w' evs hr h12
  rw [h1]
  have : nonces w.log = [] := by unfold nonces; rw [hnone]; rfl
  rw [this, List.nil_append]
  refine nodup_draws (f := fun j => draws evs j.1 j.2) ?_ new js h2 h3
  intro a b iv ha hb
  obtain ⟨h4, h5⟩ := hne a.1 b.1 a.2 b.2 iv ha hb
  exact Prod.ext h4 h5

theorem wire_datagrams (l : List Event) : wire l = (datagrams l).map fun d => d.2.2.1 := by
  unfold wire datagrams
  rw [List.map_filterMap]
  congr 1
  funext e
  cases e <;> rfl

theorem udp_of_datagram {l : List Event} {d : Ip × Nat × U128 × List Byte} (h : d ∈ datagrams l) : .udp d.1 d.2.1 d.2.2.1 d.2.2.2 ∈ l := by
  unfold datagrams at h
  obtain ⟨e, he, hd⟩ := List.mem_filterMap.1 h
  split at hd
  · cases hd; exact he
  · cases hd

/-- Every datagram of a history with one key opens, under that key, to its counter. -/
theorem sealed_counter {A : Aead} (hA : A.Correct) {hash : List Char → U64} {dir : Path} {w w' : World} {evs : List CEv} (hr : CRun A hash dir w evs w')
    (h12 : ∀ env held cmd senv, .send env held cmd senv ∈ evs → ∀ i iv, senv.rnd i = some iv → iv.length = 12) {key : List Byte} (hk : OneKey key evs) (hnone : datagrams w.log = []) :
    ∀ d ∈ datagrams w'.log, ∃ r, Seals A key d.2.2.2 r ∧ r.counter = d.2.2.1 := by
  induction hr with
  | nil => rw [hnone]; exact nofun
  | snoc hr hs ih =>
    rename_i w1 w2 evs e
    have ih := ih (fun env held cmd senv hm => h12 env held cmd senv (List.mem_append_left _ hm)) (fun env held cmd senv hm => hk env held cmd senv (List.mem_append_left _ hm))
    have same : datagrams w2.log = datagrams w1.log → ∀ d ∈ datagrams w2.log, ∃ r, Seals A key d.2.2.2 r ∧ r.counter = d.2.2.1 := fun h => by rw [h]; exact ih
    cases hs with
    | send env held cmd senv o _ h =>
      have hd := runSend_asked A hash dir held cmd senv (w1.withEnv env [])
      unfold wp at hd
      rw [h] at hd
      obtain ⟨l, hl, hp⟩ := hd
      have hl : w2.log = w1.log ++ l := hl
      rw [hl, datagrams_append]
      intro d hd
      rcases List.mem_append.1 hd with hd | hd
      · exact ih d hd
      · obtain ⟨_, t, hh, src, address, dsts, h1, h2, _, _, _, _, i, iv, h7, h8⟩ := hp _ (udp_of_datagram hd) _ _ _ _ rfl
        have hm : CEv.send env held cmd senv ∈ evs ++ [.send env held cmd senv] := by simp
        obtain ⟨_, hid, hkl⟩ := (create_ok_iff _ _).1 h2
        have := (packet_seals hA hid hkl (h12 env held cmd senv hm i iv h7) h8).2.2
        rw [hk env held cmd senv hm t hh h1 h2] at this
        exact ⟨_, this, rfl⟩
    | reseed env held o _ h =>
      refine same ?_
      have hsp := runReseed_spec dir held (w1.withEnv env [])
      unfold wp at hsp
      rw [h] at hsp
      obtain ⟨⟨l, hl, hn⟩, _⟩ := hsp
      exact noUdp_datagrams (w := w1.withEnv env []) ⟨l, hl, fun ev he ip port c bytes hev => hn ip port c bytes (hev ▸ he)⟩
    | power _ h => exact same (by rw [h.log])
    | others _ hfs hpend hlog => exact same (by rw [hlog])

theorem seals_same {A : Aead} {key bytes : List Byte} {d d' : ClientData} (h : Seals A key bytes d) (h' : Seals A key bytes d') : d = d' := by
  obtain ⟨p, h1, _, h2⟩ := h
  obtain ⟨p', h1', _, h2'⟩ := h'
  rw [h1] at h1'
  cases h1'
  rw [h2] at h2'
  cases h2'
  rfl

/-- **C91d.** Even a generator that repeats itself does not make two datagrams alike, as far as the client never reseeds: of any two datagrams sealed with one key, the later opens to the
greater counter, so no two plaintexts and no two datagrams are the same. (SECURITY.md relies on this for repeated nonces.) -/
theorem C91_plaintexts_differ (A : Aead) (hA : A.Correct) (hash : List Char → U64) (dir : Path) (w w' : World) (evs : List CEv) (hnone : datagrams w.log = []) (hr : CRun A hash dir w evs w')
    (hre : ∀ env held, .reseed env held ∉ evs) (hsync : PowerSafe dir evs w') (h12 : ∀ env held cmd senv, .send env held cmd senv ∈ evs → ∀ i iv, senv.rnd i = some iv → iv.length = 12)
    (key : List Byte) (hk : OneKey key evs) :
    (datagrams w'.log).Pairwise fun a b => a.2.2.2 ≠ b.2.2.2 ∧ ∃ r r', Seals A key a.2.2.2 r ∧ Seals A key b.2.2.2 r' ∧ r.counter.toNat < r'.counter.toNat := by
  have hw : wire w.log = [] := by rw [wire_datagrams, hnone]; rfl
  have h1 := (C32_counters_never_reused A hash dir w w' evs hw hr hre hsync).1
  rw [wire_datagrams, List.pairwise_map] at h1
  have h2 := sealed_counter hA hr h12 hk hnone
  refine h1.imp_of_mem ?_
  intro a b ha hb hab
  obtain ⟨r, hs, hc⟩ := h2 a ha
  obtain ⟨r', hs', hc'⟩ := h2 b hb
  refine ⟨fun he => ?_, r, r', hs, hs', by rw [hc, hc']; exact hab⟩
  rw [he] at hs
  have := seals_same hs hs'
  subst this
  rw [← hc, ← hc'] at hab
  omega

/-! ## A concrete history: two sends (each draws `n, n+1, …`), the second of which fails to store its first counter -/

def exDraw (n : Nat) : SendEnv := { exClientEnv exClientKey with rnd := fun i => if i < 2 then some (List.replicate 12 (BitVec.ofNat 8 (n + i))) else none }

def exNonceHistory : List CEv :=
  [.send ⟨[], List.replicate 9 (some 1000)⟩ false exCmd (exDraw 0), .send ⟨[.ok, .ok, .ok, .err 0], List.replicate 9 (some 3000)⟩ false exCmd (exDraw 10)]

def exNonceEnd : World := exNonceHistory.foldl (cexec toyAead (fun _ => 7) "/c".toList) (exDisk none [])

theorem exNonce_run : CRun toyAead (fun _ => 7) "/c".toList (exDisk none []) exNonceHistory exNonceEnd := cexec_run _ _ _ _ (by simp [exNonceHistory]) _

theorem exNonce_cases (k i : Nat) : draws exNonceHistory k i = (if k < 2 ∧ i < 2 then some (List.replicate 12 (BitVec.ofNat 8 (10 * k + i))) else none) := by
  unfold draws exNonceHistory
  match k with
  | 0 => simp [exDraw]
  | 1 => simp [exDraw]
  | k + 2 => simp; omega

theorem exNonce_twelve : TwelveEach exNonceHistory := by
  intro k i iv h
  rw [exNonce_cases] at h
  split at h
  · cases h; simp
  · cases h

theorem exNonce_differ : NoTwoAlike exNonceHistory := by
  intro k k' i i' iv h h'
  rw [exNonce_cases] at h h'
  split at h
  · rename_i hk
    split at h'
    · rename_i hk'
      rw [← h'] at h
      injection h with h
      rw [List.replicate_inj] at h
      have h := h.2.resolve_left (by omega)
      have h := congrArg BitVec.toNat h
      simp only [BitVec.toNat_ofNat] at h
      omega
    · cases h'
  · cases h

/-- Non-vacuity of C91: three datagrams were sent, made with draws 0 and 1 of the first send and draw 1 of the second. -/
theorem exNonce_wire : nonces exNonceEnd.log = [List.replicate 12 0, List.replicate 12 1, List.replicate 12 11] := by decide +kernel

example : (nonces exNonceEnd.log).Nodup ∧ ∃ (new : List (List Byte)) (js : List (Nat × Nat)), nonces exNonceEnd.log = nonces (exDisk none []).log ++ new ∧ js.Pairwise Earlier ∧
    new.map some = js.map fun j => draws exNonceHistory j.1 j.2 :=
  ⟨C91_nonces_differ toyAead (fun _ => 7) "/c".toList _ _ exNonceHistory rfl exNonce_run exNonce_twelve exNonce_differ,
    C91_no_draw_used_twice toyAead (fun _ => 7) "/c".toList _ _ exNonceHistory exNonce_run exNonce_twelve⟩

/-- Non-vacuity of C91d: the history of C32's example, whose generator gives the same bytes in every send; two datagrams share a nonce. -/
theorem exRepeats : nonces exClientEnd.log = [List.replicate 12 0, List.replicate 12 1, List.replicate 12 1, List.replicate 12 0, List.replicate 12 1] := by decide +kernel

example : (datagrams exClientEnd.log).Pairwise fun a b => a.2.2.2 ≠ b.2.2.2 ∧ ∃ r r', Seals toyAead exSenderKey.key a.2.2.2 r ∧ Seals toyAead exSenderKey.key b.2.2.2 r' ∧
    r.counter.toNat < r'.counter.toNat := by
  refine C91_plaintexts_differ toyAead toyAead_correct (fun _ => 7) "/c".toList (exDisk none []) _ exClientHistory rfl
    (cexec_run _ _ _ _ (by simp [exClientHistory, exSend]) _) (by simp [exClientHistory, exSend]) (by simp [PowerSafe, exClientHistory, exSend]) ?_ _ ?_
  · intro env held cmd senv hm i iv hi
    have : senv = exClientEnv exClientKey := by
      simp [exClientHistory, exSend] at hm
      rcases hm with h | h | h | h <;> exact h.2.2.2
    subst this
    cases hi
    simp
  · intro env held cmd senv hm t h ht hh
    have : senv = exClientEnv exClientKey := by
      simp [exClientHistory, exSend] at hm
      rcases hm with h | h | h | h <;> exact h.2.2.2
    subst this
    cases ht
    have hc : CryptoHandler.create (trim exClientKey) = .ok exSenderKey := by decide +kernel
    rw [hc] at hh
    cases hh
    rfl

end Ruroco
