import Verif.Lemmas.Handled
import Verif.Props.Codec

/-!
# C09, C11-C15, C25, C56: processing one datagram
-/

namespace Ruroco

open Spec (Acceptable Seals RateOk SameHost forwards message)

/-! ## Lemmas about the trace -/

theorem forwards_append (a b : List Event) : forwards (a ++ b) = forwards a ++ forwards b := by
  simp [forwards, List.filterMap_append]

theorem forwards_fileEvents {P : Path → Prop} {l : List Event} (h : FileEvents P l) : forwards l = [] := by
  unfold forwards
  rw [List.filterMap_eq_nil_iff]
  intro e he
  have := h e he
  cases e <;> simp_all

theorem forwards_connect (n : Nat) : forwards (List.replicate n .connect) = [] := by
  unfold forwards
  rw [List.filterMap_eq_nil_iff]
  intro e he
  rw [(List.mem_replicate.1 he).2]

theorem Saved.forwards {path : Path} {m : BlMap} {o : Out Unit} {w w' : World} (h : Saved path m o w w') :
    forwards w'.log = forwards w.log := by
  obtain ⟨l, hl, hf⟩ := h.log
  rw [hl, forwards_append, forwards_fileEvents hf, List.append_nil]

theorem Sent.forwards {c : U128} {d : CommanderData} {o : Out Unit} {w w' : World} (h : Sent c d o w w') :
    forwards w'.log = forwards w.log ∨ ∃ k, forwards w'.log = forwards w.log ++ [(w.cur, c, d.toBytes.take k)] := by
  obtain ⟨n, l, _, hl, h1 | ⟨k, h1⟩⟩ := h.log
  · left; rw [hl, h1, List.append_nil, forwards_append, forwards_connect, List.append_nil]
  · right
    refine ⟨k, ?_⟩
    rw [hl, h1, forwards_append, forwards_append, forwards_connect, List.append_nil]
    rfl

/-! ## C15: exact acceptance condition -/

/-- **C15a.** Whatever system calls fail or wherever the process dies: at most one command is forwarded, and only if the rate limit
allows it and the datagram is acceptable at the clock reading taken; the counter and message are then those of the sealed
request (a prefix of the message if the write to the commander was cut short), and the replay state was saved. -/
theorem C15_forwards_only_if_acceptable (A : Aead) (s : Server) (hb : s.bl.Wf) (dg : List Byte) (src : Ip) (rd : Readings)
    (w w' : World) (o : Out (Server × Except Err Unit)) (h : s.iteration A dg src rd w = (o, w')) :
    forwards w'.log = forwards w.log ∨
      ∃ rl now c d k, RateOk s src rd rl ∧ w.clock = some now :: c ∧ Acceptable A s now.toNat src dg d ∧
        forwards w'.log = forwards w.log ++ [(w.cur, d.counter, (message d (normalizeIp src)).take k)] ∧
        DiskHolds (w'.fs s.bl.path) (s.bl.map.insert (dg.take 8) d.counter) := by
  have hh := iteration_handled A s hb dg src rd w
  unfold wp at hh
  rw [h] at hh
  simp only at hh
  have main : ∀ (rl : RateLimiter) (now : U128) (c : List (Option U128)) (d : ClientData) (w1 w2 : World) (o : Out Unit),
      ActsWith A s dg src rd w rl now c d →
      Saved s.bl.path (s.bl.map.insert (dg.take 8) d.counter) (.ok ()) { w with clock := c } w1 →
      Sent d.counter { cmdHash := d.cmdHash, ip := d.srcIp.getD (normalizeIp src) } o w1 w2 →
      forwards w2.log = forwards w.log ∨
      ∃ rl now c d k, RateOk s src rd rl ∧ w.clock = some now :: c ∧ Acceptable A s now.toNat src dg d ∧
        forwards w2.log = forwards w.log ++ [(w.cur, d.counter, (message d (normalizeIp src)).take k)] ∧
        DiskHolds (w2.fs s.bl.path) (s.bl.map.insert (dg.take 8) d.counter) := by
    intro rl now c d w1 w2 o ha hs hf
    have e1 : forwards w1.log = forwards w.log := hs.forwards
    have hcur : w1.cur = w.cur := hs.cur
    rcases hf.forwards with e2 | ⟨k, e2⟩
    · left; rw [e2, e1]
    · right
      refine ⟨rl, now, c, d, k, ha.rate, ha.clock, ha.acc, ?_, ?_⟩
      · rw [e2, e1, hcur]; rfl
      · rw [hf.fs]
        rcases hs.result with ⟨_, _, h3⟩ | ⟨h3, _⟩
        · exact absurd rfl h3
        · exact h3
  cases hh with
  | rejected e rl c => left; rfl
  | saveFailed rl now c d e w' ha hs => left; exact hs.forwards
  | saveCrashed rl now c d w' ha hs => left; exact hs.forwards
  | acted rl now c d w1 w' ha hs hf => exact main rl now c d w1 w' _ ha hs hf
  | sendCrashed rl now c d w1 w' ha hs hf => exact main rl now c d w1 w' _ ha hs hf

/-- **C15b.** When the system calls work (and there are fewer than 2^32 keys): a command is forwarded if and only if the rate limit
allows it and the datagram is acceptable; then exactly one complete message goes out and the key's counter is advanced. -/
theorem C15_forwards_iff_acceptable (A : Aead) (s : Server) (hb : s.bl.Wf) (hlen : s.bl.map.length < 2 ^ 32)
    (dg : List Byte) (src : Ip) (rd : Readings) (w w' : World) (o : Out (Server × Except Err Unit)) (hok : AllOk w)
    (now t : U128) (c : List (Option U128)) (hc : w.clock = some now :: some t :: c)
    (h : s.iteration A dg src rd w = (o, w')) :
    (forwards w'.log ≠ forwards w.log ↔ (∃ rl, RateOk s src rd rl) ∧ ∃ d, Acceptable A s now.toNat src dg d) ∧
    (∀ rl d, RateOk s src rd rl → Acceptable A s now.toNat src dg d →
      o = .ok ({ s with rl, bl := s.bl.upsert (dg.take 8) d.counter }, .ok ()) ∧
      forwards w'.log = forwards w.log ++ [(w.cur, d.counter, message d (normalizeIp src))]) := by
  have second : ∀ rl d, RateOk s src rd rl → Acceptable A s now.toNat src dg d →
      o = .ok ({ s with rl, bl := s.bl.upsert (dg.take 8) d.counter }, .ok ()) ∧
      forwards w'.log = forwards w.log ++ [(w.cur, d.counter, message d (normalizeIp src))] := by
    intro rl d hr ha
    have hacts : ActsWith A s dg src rd w rl now (some t :: c) d := ⟨hr, hc, ha⟩
    have hh := iteration_handled A s hb dg src rd w
    unfold wp at hh
    rw [h] at hh
    simp only at hh
    have uniq : ∀ {rl' now' c' d'}, ActsWith A s dg src rd w rl' now' c' d' → rl' = rl ∧ c' = some t :: c ∧ d' = d := by
      intro rl' now' c' d' ha'
      have h1 := ha'.rate
      unfold RateOk at h1 hr
      rw [hr] at h1
      have h2 := ha'.clock
      rw [hc] at h2
      obtain ⟨k1, p1, a1, e1⟩ := authenticates_iff.2 ⟨ha.size, ha.sealed⟩
      obtain ⟨k2, p2, a2, e2⟩ := authenticates_iff.2 ⟨ha'.acc.size, ha'.acc.sealed⟩
      obtain ⟨_, rfl⟩ := authenticates_unique a1 a2
      rw [e1] at e2
      cases h1; cases h2; cases e2
      exact ⟨rfl, rfl, rfl⟩
    have hins : (s.bl.map.insert (dg.take 8) d.counter).length < 2 ^ 32 := by
      obtain ⟨v, hv, _⟩ := ha.fresh
      rw [BlMap.length_insert hv]; exact hlen
    cases hh with
    | rejected e rl' c' he hn => exact absurd hacts (hn _ _ _ _)
    | saveFailed rl' now' c' d' e w' ha' hs =>
      obtain ⟨rfl, rfl, rfl⟩ := uniq ha'
      have := (hs.works hok ⟨t, c, rfl⟩ hins).1
      cases this
    | saveCrashed rl' now' c' d' w' ha' hs =>
      obtain ⟨rfl, rfl, rfl⟩ := uniq ha'
      have := (hs.works hok ⟨t, c, rfl⟩ hins).1
      cases this
    | acted rl' now' c' d' w1 w' ha' hs hf =>
      obtain ⟨rfl, rfl, rfl⟩ := uniq ha'
      refine ⟨rfl, ?_⟩
      obtain ⟨_, h2, _⟩ := hf.allOk (hs.works hok ⟨t, c, rfl⟩ hins).2
      have hcur : w1.cur = w.cur := hs.cur
      have e1 : forwards w1.log = forwards w.log := hs.forwards
      rw [h2, forwards_append, e1, hcur]; rfl
    | sendCrashed rl' now' c' d' w1 w' ha' hs hf =>
      obtain ⟨rfl, rfl, rfl⟩ := uniq ha'
      have := (hf.allOk (hs.works hok ⟨t, c, rfl⟩ hins).2).1
      cases this
  refine ⟨⟨?_, ?_⟩, second⟩
  · intro hne
    rcases C15_forwards_only_if_acceptable A s hb dg src rd w w' o h with h1 | ⟨rl, now', c', d, k, h1, h2, h3, _⟩
    · exact absurd h1 hne
    · rw [hc] at h2; cases h2
      exact ⟨⟨rl, h1⟩, d, h3⟩
  · rintro ⟨⟨rl, hr⟩, d, ha⟩ heq
    have := (second rl d hr ha).2
    rw [heq] at this
    have := congrArg List.length this
    simp at this

/-! ## C09: rejected datagrams leave no trace -/

/-- **C09a.** Whenever processing a datagram ends in an error (of whatever kind, including a failed save), the replay state in
memory and on disk is exactly as before and nothing was forwarded. -/
theorem C09_rejected_leaves_state (A : Aead) (s s' : Server) (hb : s.bl.Wf) (dg : List Byte) (src : Ip) (rd : Readings)
    (w w' : World) (e : Err) (h : s.iteration A dg src rd w = (.ok (s', .error e), w')) :
    s'.bl = s.bl ∧ w'.fs s.bl.path = w.fs s.bl.path ∧ w'.pend s.bl.path = w.pend s.bl.path ∧
      forwards w'.log = forwards w.log ∧ s'.cfg = s.cfg ∧ s'.handlers = s.handlers := by
  have hh := iteration_handled A s hb dg src rd w
  unfold wp at hh
  rw [h] at hh
  generalize ho : (Out.ok (s', Except.error e), w').1 = o at hh
  generalize hw : (Out.ok (s', (Except.error e : Except Err Unit)), w').2 = w'' at hh
  simp only at ho hw
  subst hw
  cases hh with
  | rejected e rl c => cases ho; exact ⟨rfl, rfl, rfl, rfl, rfl, rfl⟩
  | saveFailed rl now c d e _ ha hs =>
    cases ho
    refine ⟨rfl, ?_, ?_, hs.forwards, rfl, rfl⟩
    · rcases hs.result with ⟨h1, _, _⟩ | ⟨_, _, h3, _⟩
      · exact h1
      · rcases h3 with h3 | h3 <;> cases h3
    · rcases hs.result with ⟨_, h1, _⟩ | ⟨_, _, h3, _⟩
      · exact h1
      · rcases h3 with h3 | h3 <;> cases h3
  | saveCrashed => cases ho
  | acted => cases ho
  | sendCrashed => cases ho

/-- **C09b.** A datagram that is not sealed under the loaded key it names (or is refused by the rate limiter, or is not acceptable for
any other reason) changes nothing at all except the rate limiter: no crash point, no file access, no message. -/
theorem C09_unacceptable_is_inert (A : Aead) (s : Server) (hb : s.bl.Wf) (dg : List Byte) (src : Ip) (rd : Readings)
    (w w' : World) (o : Out (Server × Except Err Unit)) (h : s.iteration A dg src rd w = (o, w'))
    (hun : ∀ now d, ¬ ((∃ rl, RateOk s src rd rl) ∧ Acceptable A s now src dg d)) :
    ∃ rl e, o = .ok ({ s with rl }, .error e) ∧ w'.fs = w.fs ∧ w'.pend = w.pend ∧ w'.log = w.log := by
  have hh := iteration_handled A s hb dg src rd w
  unfold wp at hh
  rw [h] at hh
  simp only at hh
  cases hh with
  | rejected e rl c => exact ⟨rl, e, rfl, rfl, rfl, rfl⟩
  | saveFailed _ _ _ _ _ _ ha => exact absurd ⟨⟨_, ha.rate⟩, ha.acc⟩ (hun _ _)
  | saveCrashed _ _ _ _ _ ha => exact absurd ⟨⟨_, ha.rate⟩, ha.acc⟩ (hun _ _)
  | acted _ _ _ _ _ _ ha => exact absurd ⟨⟨_, ha.rate⟩, ha.acc⟩ (hun _ _)
  | sendCrashed _ _ _ _ _ _ ha => exact absurd ⟨⟨_, ha.rate⟩, ha.acc⟩ (hun _ _)

theorem onDisk_of_holds {w : World} {path : Path} {m : BlMap} (h : DiskHolds (w.fs path) m) (k : List Byte) :
    Spec.onDisk w path k = m.get k := by
  obtain ⟨f, m', h1, _, h3, h4, _⟩ := h
  simp [Spec.onDisk, h1, h3, h4]

/-- **C09c.** A datagram never changes the stored counter of a key other than the one it names, in memory or on disk, whatever
happens (acceptance, rejection, failing calls, crash at any point). Hypothesis: the file agrees with memory before, which holds in
every reachable state (see `History`). -/
theorem C09_other_keys_untouched (A : Aead) (s : Server) (hb : s.bl.Wf) (dg : List Byte) (src : Ip) (rd : Readings)
    (w w' : World) (o : Out (Server × Except Err Unit)) (h : s.iteration A dg src rd w = (o, w'))
    (hdisk : ∀ k, Spec.onDisk w s.bl.path k = s.bl.map.get k) (k : List Byte) (hk : k ≠ dg.take 8) :
    Spec.onDisk w' s.bl.path k = Spec.onDisk w s.bl.path k ∧
      ∀ s' r, o = .ok (s', r) → s'.bl.map.get k = s.bl.map.get k := by
  have hh := iteration_handled A s hb dg src rd w
  unfold wp at hh
  rw [h] at hh
  simp only at hh
  have sv : ∀ {c : List (Option U128)} {d : ClientData} {o : Out Unit} {w1 : World},
      Saved s.bl.path (s.bl.map.insert (dg.take 8) d.counter) o { w with clock := c } w1 →
      Spec.onDisk w1 s.bl.path k = Spec.onDisk w s.bl.path k := by
    intro c d o w1 hs
    rcases hs.result with ⟨h1, _⟩ | ⟨h1, _⟩
    · have h1 : w1.fs s.bl.path = w.fs s.bl.path := h1
      simp [Spec.onDisk, h1]
    · rw [onDisk_of_holds h1, BlMap.get_insert, if_neg hk, hdisk]
  have se : ∀ {c : U128} {d : CommanderData} {o : Out Unit} {w1 w2 : World}, Sent c d o w1 w2 →
      Spec.onDisk w2 s.bl.path k = Spec.onDisk w1 s.bl.path k := by
    intro c d o w1 w2 hf
    simp [Spec.onDisk, hf.fs]
  cases hh with
  | rejected e rl c => exact ⟨rfl, fun s' r e => by cases e; rfl⟩
  | saveFailed rl now c d e w' ha hs => exact ⟨sv hs, fun s' r e => by cases e; rfl⟩
  | saveCrashed rl now c d w' ha hs => exact ⟨sv hs, fun s' r e => by cases e⟩
  | acted rl now c d w1 w' ha hs hf =>
    refine ⟨by rw [se hf, sv hs], fun s' r e => ?_⟩
    cases e
    simp [Blocklist.upsert, BlMap.get_insert, hk]
  | sendCrashed rl now c d w1 w' ha hs hf => exact ⟨by rw [se hf, sv hs], fun s' r e => by cases e⟩

/-! ## C11: authentication -/

/-- **C11.** A forwarded command (complete or cut short) comes from a datagram whose first 94 bytes seal, under the loaded key its
first eight bytes name, a request with that very hash; if only holders of a key can produce something that decrypts under it
(`Made`), a holder of that key made these 94 bytes. -/
theorem C11_only_authenticated (A : Aead) (s : Server) (hb : s.bl.Wf) (dg : List Byte) (src : Ip) (rd : Readings)
    (w w' : World) (o : Out (Server × Except Err Unit)) (h : s.iteration A dg src rd w = (o, w'))
    (hf : forwards w'.log ≠ forwards w.log) :
    94 ≤ dg.length ∧ ∃ hd d bs, s.handlers.get (dg.take 8) = some hd ∧ Seals A hd.key (dg.take 94) d ∧
      forwards w'.log = forwards w.log ++ [(w.cur, d.counter, bs)] ∧ bs <+: beBytes 8 d.cmdHash.toNat ++ serializeIp (d.srcIp.getD (normalizeIp src)) ∧
      ∀ Made : List Byte → List Byte → Prop,
        (∀ key g d, Seals A key g d → Made key (g.take 94)) → Made hd.key (dg.take 94) := by
  rcases C15_forwards_only_if_acceptable A s hb dg src rd w w' o h with h1 | ⟨rl, now', c', d, k, h1, h2, h3, h4, _⟩
  · exact absurd h1 hf
  · obtain ⟨hd, hg, hs⟩ := h3.sealed
    have hsl : ∀ a b, b ≤ 94 → slice (dg.take 94) a b = slice dg a b := by
      intro a b hb'
      unfold slice
      rw [List.drop_take, List.take_take]
      congr 1
      omega
    have hs' : Seals A hd.key (dg.take 94) d := by
      unfold Seals
      rw [hsl 8 20 (by omega), hsl 20 36 (by omega), hsl 36 94 (by omega)]
      exact hs
    exact ⟨h3.size, hd, d, _, hg, hs', h4, List.take_prefix _ _, fun Made hm => hm _ _ _ hs⟩

/-! ## C12: destination -/

/-- **C12a.** With the configured address texts parsed to `listed`: a command is forwarded only if the destination sealed in the
packet is one of them, in whatever notation. -/
theorem C12_destination_pinned (A : Aead) (s : Server) (hb : s.bl.Wf) (listed : List Ip) (hips : s.cfg.ips = loadIps listed)
    (dg : List Byte) (src : Ip) (rd : Readings) (w w' : World) (o : Out (Server × Except Err Unit))
    (h : s.iteration A dg src rd w = (o, w')) (hf : forwards w'.log ≠ forwards w.log) :
    ∃ hd d ip, s.handlers.get (dg.take 8) = some hd ∧ Seals A hd.key dg d ∧ ip ∈ listed ∧ SameHost d.dstIp ip := by
  rcases C15_forwards_only_if_acceptable A s hb dg src rd w w' o h with h1 | ⟨rl, now', c', d, k, h1, h2, h3, h4, _⟩
  · exact absurd h1 hf
  · obtain ⟨hd, hg, hs⟩ := h3.sealed
    have hm := h3.dst
    rw [hips, loadIps, List.mem_map] at hm
    obtain ⟨ip, hip, he⟩ := hm
    have hs2 := hs
    obtain ⟨pt, _, _, hdd⟩ := hs2
    refine ⟨hd, d, ip, hg, hs, hip, ?_⟩
    rw [← normalizeIp_eq_iff_sameHost, he, (deserialize_normal hdd).1]

/-- **C12b.** A packet sealed for an address this server does not list is inert here, although it may be valid on another server that
has the same key. -/
theorem C12_packet_for_other_server (A : Aead) (s : Server) (hb : s.bl.Wf) (listed : List Ip) (hips : s.cfg.ips = loadIps listed)
    (dg : List Byte) (src : Ip) (rd : Readings) (w w' : World) (o : Out (Server × Except Err Unit)) (hd : CryptoHandler)
    (d : ClientData) (hg : s.handlers.get (dg.take 8) = some hd) (hseal : Seals A hd.key dg d)
    (hother : ∀ ip ∈ listed, ¬ SameHost d.dstIp ip) (h : s.iteration A dg src rd w = (o, w')) :
    ∃ rl e, o = .ok ({ s with rl }, .error e) ∧ w'.fs = w.fs ∧ w'.log = w.log := by
  have := C09_unacceptable_is_inert A s hb dg src rd w w' o h (by
    rintro now d' ⟨_, ha⟩
    obtain ⟨hd', hg', hs'⟩ := ha.sealed
    rw [hg] at hg'; cases hg'
    obtain ⟨pt, e1, _, e2⟩ := hseal
    obtain ⟨pt', e1', _, e2'⟩ := hs'
    rw [e1] at e1'; cases e1'
    rw [e2] at e2'; cases e2'
    have hm := ha.dst
    rw [hips, loadIps, List.mem_map] at hm
    obtain ⟨ip, hip, he⟩ := hm
    refine hother ip hip ?_
    rw [← normalizeIp_eq_iff_sameHost, he, (deserialize_normal e2).1])
  obtain ⟨rl, e, h1, h2, _, h4⟩ := this
  exact ⟨rl, e, h1, h2, h4⟩

/-! ## C13: source address -/

/-- **C13.** For a completely forwarded command: the commander decodes the address `ip` such that: if the packet claims an address, `ip` is
that address, and in strict mode it is the real source; if it claims none, `ip` is the real source. Hence only a permissive packet
can make the command see another address than the real one. -/
theorem C13_source_pinning (A : Aead) (s : Server) (hb : s.bl.Wf) (dg : List Byte) (src : Ip) (rd : Readings)
    (w w' : World) (o : Out (Server × Except Err Unit)) (h : s.iteration A dg src rd w = (o, w')) (g bs : List Byte) (c : U128)
    (hf : forwards w'.log = forwards w.log ++ [(g, c, bs)]) (hfull : bs.length = 24) :
    ∃ hd d, s.handlers.get (dg.take 8) = some hd ∧ Seals A hd.key dg d ∧
      (CommanderData.ofBytes bs).cmdHash = d.cmdHash ∧
      (∀ claimed, d.srcIp = some claimed → (CommanderData.ofBytes bs).ip = claimed) ∧
      (d.srcIp = none → SameHost (CommanderData.ofBytes bs).ip src) ∧
      (d.strict = true → SameHost (CommanderData.ofBytes bs).ip src) := by
  rcases C15_forwards_only_if_acceptable A s hb dg src rd w w' o h with h1 | ⟨rl, now', c', d, k, h1, h2, h3, h4, _⟩
  · rw [h1] at hf
    have := congrArg List.length hf
    simp at this
  · obtain ⟨hd, hg, hs⟩ := h3.sealed
    rw [h4] at hf
    have hf := List.append_cancel_left hf
    simp only [List.cons.injEq, Prod.mk.injEq, and_true] at hf
    obtain ⟨_, _, hbs⟩ := hf
    have hbs' : bs = message d (normalizeIp src) := by
      rw [← hbs] at hfull
      rw [← hbs]
      apply List.take_of_length_le
      rw [List.length_take] at hfull
      have : (message d (normalizeIp src)).length = 24 := toBytes_length _
      omega
    obtain ⟨pt, hpt⟩ := hs
    have hnorm := (deserialize_normal hpt.2.2).2
    have hof : CommanderData.ofBytes bs = ⟨d.cmdHash, normalizeIp (d.srcIp.getD (normalizeIp src))⟩ := by
      rw [hbs']
      exact CommanderData.ofBytes_toBytes _
    refine ⟨hd, d, hg, ⟨pt, hpt⟩, by rw [hof], ?_, ?_, ?_⟩
    · intro ip hip
      rw [hof, hip]
      exact hnorm ip hip
    · intro hnone
      rw [hof, hnone, ← normalizeIp_eq_iff_sameHost]
      simp [normalizeIp_idem]
    · intro hstrict
      rw [hof, ← normalizeIp_eq_iff_sameHost]
      cases hsrc : d.srcIp with
      | none => simp [normalizeIp_idem]
      | some ip =>
        have := h3.src hstrict ip hsrc
        rw [← normalizeIp_eq_iff_sameHost] at this
        simp [normalizeIp_idem, this]

/-! ## C14: failed persistence -/

/-- **C14a.** If the replay state can not be saved (at whatever system call), nothing is forwarded and memory and disk are as before. -/
theorem C14_failed_save_no_execution (A : Aead) (s s' : Server) (hb : s.bl.Wf) (dg : List Byte) (src : Ip) (rd : Readings)
    (w w' : World) (h : s.iteration A dg src rd w = (.ok (s', .error .save), w')) :
    (∃ rl, s' = { s with rl }) ∧ w'.fs s.bl.path = w.fs s.bl.path ∧ forwards w'.log = forwards w.log ∧
      ∃ now c d, w.clock = some now :: c ∧ Acceptable A s now.toNat src dg d := by
  have h9 := C09_rejected_leaves_state A s s' hb dg src rd w w' .save h
  have hh := iteration_handled A s hb dg src rd w
  unfold wp at hh
  rw [h] at hh
  generalize ho : (Out.ok (s', Except.error Err.save), w').1 = o at hh
  generalize hw : (Out.ok (s', (Except.error Err.save : Except Err Unit)), w').2 = w'' at hh
  simp only at ho hw
  subst hw
  cases hh with
  | rejected e rl c he => cases ho; exact absurd rfl he
  | saveFailed rl now c d e _ ha hs =>
    cases ho
    exact ⟨⟨rl, rfl⟩, h9.2.1, h9.2.2.2.1, now, c, d, ha.clock, ha.acc⟩
  | saveCrashed => cases ho
  | acted => cases ho
  | sendCrashed => cases ho

/-- **C14b.** The very same packet delivered again (at a later time `now2`, when the system calls work and the rate limiter lets it
pass) is acted on: the failed attempt did not use up its counter. -/
theorem C14_retry_works (A : Aead) (s s' : Server) (hb : s.bl.Wf) (hlen : s.bl.map.length < 2 ^ 32) (dg : List Byte) (src : Ip)
    (rd : Readings) (w w' : World) (h : s.iteration A dg src rd w = (.ok (s', .error .save), w'))
    (w2 w2' : World) (rd2 : Readings) (o2 : Out (Server × Except Err Unit)) (hok : AllOk w2) (now now2 t : U128) (c c2 : List (Option U128))
    (hc : w.clock = some now :: c) (hc2 : w2.clock = some now2 :: some t :: c2) (hlater : now.toNat ≤ now2.toNat)
    (rl : RateLimiter) (hrate : RateOk s' src rd2 rl) (h2 : s'.iteration A dg src rd2 w2 = (o2, w2')) :
    ∃ d, Acceptable A s now.toNat src dg d ∧
      forwards w2'.log = forwards w2.log ++ [(w2.cur, d.counter, message d (normalizeIp src))] := by
  obtain ⟨⟨rl', rfl⟩, _, _, now', c', d, hc', ha⟩ := C14_failed_save_no_execution A s s' hb dg src rd w w' h
  rw [hc] at hc'; cases hc'
  have ha2 : Acceptable A { s with rl := rl' } now2.toNat src dg d :=
    ⟨ha.size, ha.sealed, ha.fresh, Nat.le_trans ha.notFuture (by exact Nat.add_le_add_right hlater _), ha.dst, ha.src⟩
  exact ⟨d, ha, ((C15_forwards_iff_acceptable A { s with rl := rl' } hb hlen dg src rd2 w2 w2' o2 hok now2 t c2 hc2 h2).2 rl d hrate ha2).2⟩

/-! ## C25: no other effects -/

/-- **C25.** The complete trace of processing one datagram, whatever fails and wherever it dies: first system calls on the replay-state
file and its temporary file, then the connection to the commander, then at most one message to it; nothing else, in particular no
network packet; and no other file changes. -/
theorem C25_trace_shape (A : Aead) (s : Server) (hb : s.bl.Wf) (dg : List Byte) (src : Ip) (rd : Readings)
    (w w' : World) (o : Out (Server × Except Err Unit)) (h : s.iteration A dg src rd w = (o, w')) :
    (∃ files n fwd, w'.log = w.log ++ files ++ List.replicate n .connect ++ fwd ∧ n ≤ 2 ∧
      (∀ e ∈ files, ∃ q, (q = s.bl.path ∨ ∃ t, q = tmpPath s.bl.path t) ∧ ((∃ op, e = .file op q) ∨ e = .statFailed q ∨ e = .dirSyncFailed q)) ∧
      (fwd = [] ∨ ∃ c bs, fwd = [.forward w.cur c bs])) ∧
    (∀ q, q ≠ s.bl.path → (∀ t, q ≠ tmpPath s.bl.path t) → w'.fs q = w.fs q) ∧
    (∀ ip port c bs, .udp ip port c bs ∈ w'.log → .udp ip port c bs ∈ w.log) := by
  have conv : ∀ {l : List Event}, FileEvents (fun q => q = s.bl.path ∨ IsTmpOf s.bl.path q) l →
      ∀ e ∈ l, ∃ q, (q = s.bl.path ∨ ∃ t, q = tmpPath s.bl.path t) ∧ ((∃ op, e = .file op q) ∨ e = .statFailed q ∨ e = .dirSyncFailed q) := by
    intro l hl e he
    have := hl e he
    cases e with
    | file op p => exact ⟨p, this, Or.inl ⟨op, rfl⟩⟩
    | statFailed p => exact ⟨p, this, Or.inr (Or.inl rfl)⟩
    | dirSyncFailed p => exact ⟨p, this, Or.inr (Or.inr rfl)⟩
    | _ => exact this.elim
  suffices hmain : (∃ files n fwd, w'.log = w.log ++ files ++ List.replicate n .connect ++ fwd ∧ n ≤ 2 ∧
      (∀ e ∈ files, ∃ q, (q = s.bl.path ∨ ∃ t, q = tmpPath s.bl.path t) ∧ ((∃ op, e = .file op q) ∨ e = .statFailed q ∨ e = .dirSyncFailed q)) ∧
      (fwd = [] ∨ ∃ c bs, fwd = [.forward w.cur c bs])) ∧
    (∀ q, q ≠ s.bl.path → (∀ t, q ≠ tmpPath s.bl.path t) → w'.fs q = w.fs q) by
    refine ⟨hmain.1, hmain.2, ?_⟩
    obtain ⟨⟨files, n, fwd, hl, _, hfiles, hfwd⟩, _⟩ := hmain
    intro dst port c bs hmem
    rw [hl] at hmem
    rcases List.mem_append.1 hmem with hmem | hmem
    · rcases List.mem_append.1 hmem with hmem | hmem
      · rcases List.mem_append.1 hmem with hmem | hmem
        · exact hmem
        · obtain ⟨q, _, ⟨op, he⟩ | he | he⟩ := hfiles _ hmem <;> cases he
      · have := (List.mem_replicate.1 hmem).2; cases this
    · rcases hfwd with rfl | ⟨c, bs, rfl⟩
      · cases hmem
      · simp at hmem
  have hh := iteration_handled A s hb dg src rd w
  unfold wp at hh
  rw [h] at hh
  simp only at hh
  have sv : ∀ {c : List (Option U128)} {m : BlMap} {o : Out Unit} {w1 : World}, Saved s.bl.path m o { w with clock := c } w1 →
      (∃ files n fwd, w1.log = w.log ++ files ++ List.replicate n .connect ++ fwd ∧ n ≤ 2 ∧
      (∀ e ∈ files, ∃ q, (q = s.bl.path ∨ ∃ t, q = tmpPath s.bl.path t) ∧ ((∃ op, e = .file op q) ∨ e = .statFailed q ∨ e = .dirSyncFailed q)) ∧
      (fwd = [] ∨ ∃ c bs, fwd = [.forward w.cur c bs])) ∧
    (∀ q, q ≠ s.bl.path → (∀ t, q ≠ tmpPath s.bl.path t) → w1.fs q = w.fs q) := by
    intro c m o w1 hs
    obtain ⟨l, hl, hf⟩ := hs.log
    exact ⟨⟨l, 0, [], by simpa using hl, by omega, conv hf, Or.inl rfl⟩, fun q h1 h2 => (hs.frame q h1 (fun ⟨t, ht⟩ => h2 t ht)).1⟩
  have both : ∀ {c : List (Option U128)} {m : BlMap} {o' o : Out Unit} {w1 w2 : World} {cnt : U128} {d : CommanderData},
      Saved s.bl.path m o { w with clock := c } w1 → Sent cnt d o' w1 w2 →
      (∃ files n fwd, w2.log = w.log ++ files ++ List.replicate n .connect ++ fwd ∧ n ≤ 2 ∧
      (∀ e ∈ files, ∃ q, (q = s.bl.path ∨ ∃ t, q = tmpPath s.bl.path t) ∧ ((∃ op, e = .file op q) ∨ e = .statFailed q ∨ e = .dirSyncFailed q)) ∧
      (fwd = [] ∨ ∃ c bs, fwd = [.forward w.cur c bs])) ∧
    (∀ q, q ≠ s.bl.path → (∀ t, q ≠ tmpPath s.bl.path t) → w2.fs q = w.fs q) := by
    intro c m o' o w1 w2 cnt d hs hf
    obtain ⟨l, hl, hfe⟩ := hs.log
    obtain ⟨n, l2, hn, hl2, h2⟩ := hf.log
    have hcur : w1.cur = w.cur := hs.cur
    refine ⟨⟨l, n, l2, by rw [hl2, hl], hn, conv hfe, ?_⟩, fun q h1 h2 => ?_⟩
    · rcases h2 with h2 | ⟨k, h2⟩
      · exact Or.inl h2
      · rw [hcur] at h2; exact Or.inr ⟨_, _, h2⟩
    · rw [hf.fs]; exact (hs.frame q h1 (fun ⟨t, ht⟩ => h2 t ht)).1
  cases hh with
  | rejected e rl c => exact ⟨⟨[], 0, [], by simp, by omega, by simp, Or.inl rfl⟩, fun _ _ _ => rfl⟩
  | saveFailed rl now c d e w' ha hs => exact sv hs
  | saveCrashed rl now c d w' ha hs => exact sv hs
  | acted rl now c d w1 w' ha hs hf => exact both hs hf
  | sendCrashed rl now c d w1 w' ha hs hf => exact both hs hf

/-! ## C56: datagram size -/

/-- **C56 (partial).** A datagram shorter than 94 bytes is rejected with the size error and changes nothing, not even the rate limiter.
Missing: the same for longer datagrams, which is false, see `C56_longer_is_processed`. -/
theorem C56_short_rejected_partial (A : Aead) (s : Server) (dg : List Byte) (src : Ip) (rd : Readings) (w : World)
    (h : dg.length < 94) : s.iteration A dg src rd w = (.ok (s, .error .badSize), w) := by
  unfold Server.iteration
  rw [if_pos (by rw [List.length_take]; simp only [MSG_SIZE]; omega)]
  rfl

/-- **C56 is false for longer datagrams**: any extra bytes are cut off by the receive buffer, so a datagram with trailing data is
processed exactly like its first 94 bytes. -/
theorem C56_longer_is_processed (A : Aead) (s : Server) (dg extra : List Byte) (src : Ip) (rd : Readings) (w : World)
    (h : dg.length = 94) : s.iteration A (dg ++ extra) src rd w = s.iteration A dg src rd w := by
  unfold Server.iteration
  have : (dg ++ extra).take MSG_SIZE = dg.take MSG_SIZE := by
    rw [List.take_append_of_le_length (by simp only [MSG_SIZE]; omega)]
  rw [this]

/-! ## A concrete server and datagram (non-vacuity of the theorems above) -/

def exKey : CryptoHandler := { id := [1, 2, 3, 4, 5, 6, 7, 8], key := List.replicate 32 9 }

def exServer : Server where
  cfg := { ips := loadIps [.v6 0xffff0a000002], maxPerIp := 2, maxGlobal := 100, skewSeconds := 3600, blDir := "/s".toList }
  handlers := [(exKey.id, exKey)]
  bl := { map := [(exKey.id, 4000)], path := blocklistPath "/s".toList, order := id }
  rl := RateLimiter.new 0
  throttle := ⟨none, 0⟩

def exRequest : ClientData := { cmdHash := 7, counter := 5000, strict := true, srcIp := some (.v4 0x0a000001), dstIp := .v4 0x0a000002 }

def exDatagram : List Byte :=
  exKey.id ++ List.replicate 12 3 ++ (toyAead.enc exKey.key (List.replicate 12 3) exRequest.serialize).1 ++ exRequest.serialize

def exReadings : Readings := ⟨fun _ => 10, 10, 10, 10, 10, 10⟩

def exWorld (oracle : List Choice) : World where
  fs := fun _ => none
  pend := fun _ => []
  clock := [some 1000, some 2000]
  oracle := oracle
  umask := 0o022
  cur := exDatagram
  log := []

theorem exServer_wf : exServer.bl.Wf :=
  ⟨⟨by simp [BlMap.Nodup, exServer], by intro k hk; simp [exServer] at hk; subst hk; rfl⟩, fun m => List.Perm.refl m⟩

/-- The datagram is acceptable, and really forwarded; with a failing disk it is not; from another source it is not. -/
theorem ex_forwarded :
    forwards (exServer.iteration toyAead exDatagram (.v6 0xffff0a000001) exReadings (exWorld [])).2.log =
      [(exDatagram, 5000, message exRequest (.v4 0x0a000001))] ∧
    forwards (exServer.iteration toyAead (exDatagram ++ [0, 0]) (.v6 0xffff0a000001) exReadings (exWorld [])).2.log =
      [(exDatagram, 5000, message exRequest (.v4 0x0a000001))] ∧
    forwards (exServer.iteration toyAead exDatagram (.v6 0xffff0a000001) exReadings (exWorld [.ok, .err 3])).2.log = [] ∧
    forwards (exServer.iteration toyAead exDatagram (.v4 0x0a000003) exReadings (exWorld [])).2.log = [] := by
  decide +kernel

example : ∃ d, Acceptable toyAead exServer 1000 (.v6 0xffff0a000001) exDatagram d := by
  have h := C15_forwards_iff_acceptable toyAead exServer exServer_wf (by decide +kernel) exDatagram (.v6 0xffff0a000001) exReadings
    (exWorld []) (exServer.iteration toyAead exDatagram (.v6 0xffff0a000001) exReadings (exWorld [])).2
    (exServer.iteration toyAead exDatagram (.v6 0xffff0a000001) exReadings (exWorld [])).1 (by simp [AllOk, exWorld]) 1000 2000 [] rfl rfl
  exact (h.1.1 (by rw [ex_forwarded.1]; simp [exWorld, forwards])).2

end Ruroco
