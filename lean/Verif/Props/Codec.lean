import Verif.Lemmas.Protocol
import Verif.Spec.Terms.Codec

/-!
# C01, C02, C05, C06: packet plaintext, commander message, IP normalisation
-/

namespace Ruroco

open Spec (SameHost)

theorem normalizeIp_sameHost (ip : Ip) : SameHost (normalizeIp ip) ip :=
  (normalizeIp_eq_iff_sameHost _ _).1 (normalizeIp_idem ip)

theorem normalizeIp_of_not_mapped {ip : Ip} (h : ¬ Spec.IsMappedNotation ip) : normalizeIp ip = ip := by
  cases ip with
  | v4 a => rfl
  | v6 x =>
    cases hx : toV4Mapped x with
    | none => simp [normalizeIp, hx]
    | some b => exact absurd ⟨x, b, rfl, toV4Mapped_eq_some.1 hx⟩ h

theorem normalizeIp_not_mapped (ip : Ip) : ¬ Spec.IsMappedNotation (normalizeIp ip) := by
  rintro ⟨x, a, hx, hm⟩
  have h := normalizeIp_idem ip
  rw [hx] at h
  simp [normalizeIp, toV4Mapped_eq_some.2 hm] at h

/-- **C01.** Encoding a request and decoding the 58 bytes gives back the same command hash, counter and strict flag, the same
destination host, and the same claimed source host, with the single exception that a claimed source `::` is read as "no source
claimed". -/
theorem C01_plaintext_round_trip (d : ClientData) :
    ∃ d', ClientData.deserialize d.serialize = .ok d' ∧
      d'.cmdHash = d.cmdHash ∧ d'.counter = d.counter ∧ d'.strict = d.strict ∧
      SameHost d'.dstIp d.dstIp ∧
      (d.srcIp = none → d'.srcIp = none) ∧
      (d.srcIp = some (.v6 0) → d'.srcIp = none) ∧
      (∀ ip, d.srcIp = some ip → ip ≠ .v6 0 → ∃ ip', d'.srcIp = some ip' ∧ SameHost ip' ip) := by
  refine ⟨_, deserialize_serialize d, rfl, rfl, rfl, normalizeIp_sameHost _, ?_, ?_, ?_⟩
  · intro h; simp [readSrc, h]
  · intro h; simp [readSrc, h]
  · intro ip h h0
    exact ⟨normalizeIp ip, by simp [readSrc, h]; exact h0, normalizeIp_sameHost _⟩

/-- **C01** for requests written without IPv4-mapped notation and without the source `::`: the round trip is the identity. -/
theorem C01_plaintext_round_trip_exact (d : ClientData) (hs : d.srcIp ≠ some (.v6 0))
    (hsm : ∀ ip, d.srcIp = some ip → ¬ Spec.IsMappedNotation ip) (hdm : ¬ Spec.IsMappedNotation d.dstIp) :
    ClientData.deserialize d.serialize = .ok d := by
  rw [deserialize_serialize, normalizeIp_of_not_mapped hdm]
  cases d with
  | mk a b c src dst =>
    cases src with
    | none => rfl
    | some ip =>
      have : ip ≠ .v6 0 := fun h => hs (by rw [h])
      simp [readSrc, normalizeIp_of_not_mapped (hsm ip rfl)]
      exact this

/-- Non-vacuity: a dual-stack request with a mapped source is read back with the IPv4 form. -/
example : ClientData.deserialize
    ({ cmdHash := 0x1122334455667788, counter := 1763290000000000000, strict := true,
       srcIp := some (.v6 0xffffc0a80001), dstIp := .v6 0x20010db8000000000000000000000001 } : ClientData).serialize =
    .ok { cmdHash := 0x1122334455667788, counter := 1763290000000000000, strict := true,
          srcIp := some (.v4 0xc0a80001), dstIp := .v6 0x20010db8000000000000000000000001 } := by decide +kernel

/-- **C02a.** Decoding is a total function and rejects a plaintext exactly when its first byte is not the supported
version. -/
theorem C02_rejects_iff_version (bs : List Byte) (hl : bs.length = 58) :
    (∃ e, ClientData.deserialize bs = .error e) ↔ bs.head? ≠ some 1 := by
  cases bs with
  | nil => simp at hl
  | cons x xs =>
    by_cases h : x = PROTOCOL_VERSION
    · subst h; simp [ClientData.deserialize, PROTOCOL_VERSION]
    · have h' : ¬ x = 1 := h
      simp [ClientData.deserialize, h]
      exact h'

/-- **C02b.** Two accepted plaintexts that decode to the same request are byte-for-byte equal except possibly at byte 25 (the
strict flag), where both are zero or both are non-zero. -/
theorem C02_decoding_unambiguous (bs cs : List Byte) (d : ClientData) (hb : bs.length = 58) (hc : cs.length = 58)
    (h1 : ClientData.deserialize bs = .ok d) (h2 : ClientData.deserialize cs = .ok d) :
    (∀ i, i ≠ 25 → bs[i]? = cs[i]?) ∧ (bs[25]? = some 0 ↔ cs[25]? = some 0) := by
  have hv : ∀ xs : List Byte, xs.length = 58 → ClientData.deserialize xs = .ok d → xs.head? = some PROTOCOL_VERSION := by
    intro xs hl hd
    apply Classical.byContradiction
    intro hne
    obtain ⟨e, he⟩ := (C02_rejects_iff_version xs hl).2 hne
    rw [he] at hd; cases hd
  obtain ⟨h, c, s, a, b, lh, lc, la, lb, rfl⟩ := split_fields bs hb (hv bs hb h1)
  obtain ⟨h', c', s', a', b', lh', lc', la', lb', rfl⟩ := split_fields cs hc (hv cs hc h2)
  rw [deserialize_fields _ _ _ _ _ lh lc la] at h1
  rw [deserialize_fields _ _ _ _ _ lh' lc' la'] at h2
  rw [← h2] at h1
  simp only [Except.ok.injEq, ClientData.mk.injEq] at h1
  obtain ⟨e1, e2, e3, e4, e5⟩ := h1
  have eh : h = h' := by rw [← beBytes_U64 h lh, e1, beBytes_U64 h' lh']
  have ec : c = c' := by rw [← beBytes_U128 c lc, e2, beBytes_U128 c' lc']
  have eb : b = b' := by rw [← serializeIp_deserializeIp b lb, e5, serializeIp_deserializeIp b' lb']
  have ea : a = a' := by
    by_cases ha : a = zeros 16 <;> by_cases ha' : a' = zeros 16
    · rw [ha, ha']
    · simp [ha, ha'] at e4
    · simp [ha, ha'] at e4
    · simp [ha, ha'] at e4
      rw [← serializeIp_deserializeIp a la, e4, serializeIp_deserializeIp a' la']
  subst eh ec eb ea
  have hlen : ([PROTOCOL_VERSION] ++ h ++ c).length = 25 := by simp [lh, lc]
  have hre : ∀ t : Byte, [PROTOCOL_VERSION] ++ h ++ c ++ [t] ++ a ++ b = ([PROTOCOL_VERSION] ++ h ++ c) ++ ([t] ++ (a ++ b)) := by
    intro t; simp
  rw [hre, hre]
  generalize [PROTOCOL_VERSION] ++ h ++ c = p at hlen
  constructor
  · intro i hi
    by_cases hlt : i < 25
    · rw [List.getElem?_append_left (by omega), List.getElem?_append_left (by omega)]
    · have hget : ∀ t : Byte, (p ++ ([t] ++ (a ++ b)))[i]? = (a ++ b)[i - 26]? := by
        intro t
        rw [List.getElem?_append_right (by omega), List.getElem?_append_right (by simp; omega)]
        simp only [List.length_singleton]; congr 1; omega
      rw [hget, hget]
  · have hget : ∀ t : Byte, (p ++ ([t] ++ (a ++ b)))[25]? = some t := by
      intro t
      rw [List.getElem?_append_right (by omega), hlen]
      rfl
    rw [hget, hget]
    simp at e3 ⊢
    exact e3

/-- Non-vacuity of C02: an accepted and a rejected 58-byte plaintext; two distinct plaintexts with the same decoding. -/
example : (∃ d, ClientData.deserialize (1 :: zeros 57) = .ok d) ∧ (∃ e, ClientData.deserialize (2 :: zeros 57) = .error e) :=
  ⟨⟨_, rfl⟩, ⟨_, rfl⟩⟩
example : ClientData.deserialize (1 :: zeros 24 ++ 7 :: zeros 32) = ClientData.deserialize (1 :: zeros 24 ++ 1 :: zeros 32) := by
  decide +kernel

/-- **C05a.** The commander decodes the server's 24-byte message to the same hash and the same host address. -/
theorem C05_ipc_round_trip (d : CommanderData) :
    d.toBytes.length = 24 ∧ (CommanderData.ofBytes d.toBytes).cmdHash = d.cmdHash ∧
      SameHost (CommanderData.ofBytes d.toBytes).ip d.ip ∧ ¬ Spec.IsMappedNotation (CommanderData.ofBytes d.toBytes).ip := by
  rw [CommanderData.ofBytes_toBytes]
  exact ⟨by simp [CommanderData.toBytes], rfl, normalizeIp_sameHost _, normalizeIp_not_mapped _⟩

/-- **C05b.** Every 24-byte message decodes (the function is total) and re-encodes to itself: decoding loses nothing. -/
theorem C05_ipc_every_message (bs : List Byte) (hl : bs.length = 24) : (CommanderData.ofBytes bs).toBytes = bs :=
  CommanderData.toBytes_ofBytes bs hl

/-- **C05c.** Two requests have the same message exactly when hash and host address agree. -/
theorem C05_ipc_injective (d e : CommanderData) :
    d.toBytes = e.toBytes ↔ d.cmdHash = e.cmdHash ∧ SameHost d.ip e.ip := by
  rw [← normalizeIp_eq_iff_sameHost]
  constructor
  · intro h
    have := congrArg CommanderData.ofBytes h
    rw [CommanderData.ofBytes_toBytes, CommanderData.ofBytes_toBytes] at this
    simpa using this
  · rintro ⟨h1, h2⟩
    rw [CommanderData.toBytes, CommanderData.toBytes, h1, serializeIp_inj.2 h2]

example : (⟨5, .v4 0x7f000001⟩ : CommanderData).toBytes = zeros 7 ++ [5] ++ zeros 10 ++ [255, 255, 127, 0, 0, 1] := by
  decide +kernel

/-- **C06a.** Normalising is idempotent, keeps the host address and never leaves mapped notation. -/
theorem C06_normalize_idempotent (ip : Ip) :
    normalizeIp (normalizeIp ip) = normalizeIp ip ∧ SameHost (normalizeIp ip) ip ∧
      ¬ Spec.IsMappedNotation (normalizeIp ip) :=
  ⟨normalizeIp_idem ip, normalizeIp_sameHost ip, normalizeIp_not_mapped ip⟩

/-- **C06b.** Same normal form iff same host. -/
theorem C06_normalize_canonical (a b : Ip) : normalizeIp a = normalizeIp b ↔ SameHost a b :=
  normalizeIp_eq_iff_sameHost a b

/-- **C06c.** The 16-byte wire form is the same iff the hosts are the same, and it decodes to the normal form. -/
theorem C06_wire_form (a b : Ip) :
    (serializeIp a = serializeIp b ↔ SameHost a b) ∧ (serializeIp a).length = 16 ∧
      deserializeIp (serializeIp a) = normalizeIp a :=
  ⟨by rw [serializeIp_inj, normalizeIp_eq_iff_sameHost], by simp, deserializeIp_serializeIp a⟩

/-- `::ffff:10.0.0.1` and `10.0.0.1` are the same host, `::10.0.0.1` is not. -/
example : SameHost (.v6 0xffff0a000001) (.v4 0x0a000001) ∧ ¬ SameHost (.v6 0x0a000001) (.v4 0x0a000001) := by
  simp [SameHost, Spec.IsMappedOf]
example : normalizeIp (.v6 0xffff0a000001) = .v4 0x0a000001 := by decide +kernel

end Ruroco
