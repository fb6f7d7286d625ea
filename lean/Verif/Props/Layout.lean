import Verif.Spec.Layout
import Verif.Lemmas.Damage
import Verif.Props.Codec
import Verif.Props.Crypto
import Verif.Props.Client
import Verif.Props.SendContent
import Verif.Model.Blake2b

/-!
# C123: datagrams, messages and the counter file have the documented layout
-/

namespace Ruroco

open Spec (field bigEndian addressBytes claimBytes PlaintextLayout DatagramLayout MessageLayout)

theorem field_eq_slice (bs : List Byte) (a b : Nat) : field bs a b = slice bs a b := rfl

theorem bigEndian_eq (len n : Nat) : bigEndian len n = beBytes len n := by
  induction len generalizing n with
  | zero => rfl
  | succ k ih =>
    show _ = beBytes k (n / 256) ++ [BitVec.ofNat 8 n]
    rw [← ih]
    unfold bigEndian
    rw [List.range_succ, List.map_append]
    congr 1
    · refine List.map_congr_left (fun i hi => ?_)
      have hi := List.mem_range.mp hi
      rw [Nat.div_div_eq_div_mul, show k + 1 - 1 - i = (k - 1 - i) + 1 by omega, Nat.pow_succ, Nat.mul_comm]
    · simp

theorem addressBytes_eq (ip : Ip) : addressBytes ip = serializeIp ip := by
  cases ip with
  | v6 a => exact bigEndian_eq _ _
  | v4 a =>
    show List.replicate 10 0 ++ [255, 255] ++ bigEndian 4 a.toNat = beBytes 16 (v4ToMapped a).toNat
    have ha := a.isLt
    have h : (v4ToMapped a).toNat = 0xffff * 2 ^ 32 + a.toNat := by
      unfold v4ToMapped
      rw [BitVec.toNat_ofNat, Nat.mod_eq_of_lt (by omega)]
    rw [h, bigEndian_eq, show 16 = 12 + 4 from rfl, beBytes_add 12 4]
    have e1 : (0xffff * 2 ^ 32 + a.toNat) / 256 ^ 4 = 0xffff := by omega
    rw [e1]
    congr 1
    have hm : ∀ m v v' : Nat, v % 256 ^ m = v' % 256 ^ m → beBytes m v = beBytes m v' := by
      intro m v v' hv
      refine ofBE_inj (by simp) ?_
      rw [ofBE_beBytes, ofBE_beBytes, hv]
    exact hm _ _ _ (by omega)

/-- A byte string is determined by consecutive fields that cover it. -/
theorem field_cut (bs : List Byte) (a b c : Nat) (hab : a ≤ b) (hbc : b ≤ c) : field bs a c = field bs a b ++ field bs b c := by
  unfold field
  rw [show c - a = (b - a) + (c - b) by omega, List.take_add, List.drop_drop, show a + (b - a) = b by omega]

theorem field_all (bs : List Byte) : field bs 0 bs.length = bs := by
  unfold field
  simp

theorem field_append_left {xs ys : List Byte} {a b : Nat} (hb : b ≤ xs.length) : field (xs ++ ys) a b = field xs a b := by
  unfold field
  rw [List.drop_append, List.take_append]
  have : (List.drop (a - xs.length) ys).take (b - a - (xs.drop a).length) = [] := by
    rw [List.length_drop]
    by_cases h : a ≤ xs.length
    · rw [show b - a - (xs.length - a) = 0 by omega, List.take_zero]
    · rw [show b - a - (xs.length - a) = 0 by omega, List.take_zero]
  rw [this, List.append_nil]

theorem field_append_right {xs ys : List Byte} {a b n : Nat} (hn : xs.length = n) (ha : n ≤ a) : field (xs ++ ys) a b = field ys (a - n) (b - n) :=
  slice_append_right xs ys a b n hn ha

/-- The bytes of a claimed source address. -/
def srcBytes : Option Ip → List Byte
  | some ip => serializeIp ip
  | none => zeros 16

@[simp] theorem srcBytes_length (s : Option Ip) : (srcBytes s).length = 16 := by
  cases s with
  | none => rfl
  | some ip => exact serializeIp_length ip

theorem plaintextLayout_iff (hash counter : Nat) (strict : Byte) (src : Option Ip) (dst : Ip) (bs : List Byte) :
    PlaintextLayout hash counter strict src dst bs ↔ bs = [PROTOCOL_VERSION] ++ beBytes 8 hash ++ beBytes 16 counter ++ [strict] ++ srcBytes src ++ serializeIp dst := by
  have hsrc : claimBytes src = srcBytes src := by
    cases src with
    | none => rfl
    | some ip => exact addressBytes_eq ip
  constructor
  · rintro ⟨h0, h1, h2, h3, h4, h5, h6⟩
    rw [bigEndian_eq] at h2 h3
    rw [hsrc] at h5
    rw [addressBytes_eq] at h6
    rw [← field_all bs, h0, field_cut bs 0 42 58 (by omega) (by omega), field_cut bs 0 26 42 (by omega) (by omega), field_cut bs 0 25 26 (by omega) (by omega),
      field_cut bs 0 9 25 (by omega) (by omega), field_cut bs 0 1 9 (by omega) (by omega), h1, h2, h3, h4, h5, h6]
    rfl
  · intro h
    have e : bs = [PROTOCOL_VERSION] ++ (beBytes 8 hash ++ (beBytes 16 counter ++ ([strict] ++ (srcBytes src ++ (serializeIp dst ++ []))))) := by
      rw [h]; simp only [List.append_assoc, List.append_nil]
    have whole : ∀ (xs ys : List Byte) (n : Nat), xs.length = n → field (xs ++ ys) 0 n = xs := fun xs ys n hn => slice_zero_append xs ys n hn
    refine ⟨by rw [h]; simp, ?_, ?_, ?_, ?_, ?_, ?_⟩
    · rw [e, whole _ _ 1 rfl]; rfl
    · rw [e, field_append_right (n := 1) rfl (by omega), whole _ _ 8 (by simp), bigEndian_eq]
    · rw [e, field_append_right (n := 1) rfl (by omega), field_append_right (n := 8) (by simp) (by omega), whole _ _ 16 (by simp), bigEndian_eq]
    · rw [e, field_append_right (n := 1) rfl (by omega), field_append_right (n := 8) (by simp) (by omega), field_append_right (n := 16) (by simp) (by omega), whole _ _ 1 rfl]
    · rw [hsrc, e, field_append_right (n := 1) rfl (by omega), field_append_right (n := 8) (by simp) (by omega), field_append_right (n := 16) (by simp) (by omega),
        field_append_right (n := 1) rfl (by omega), whole _ _ 16 (by simp)]
    · rw [e, field_append_right (n := 1) rfl (by omega), field_append_right (n := 8) (by simp) (by omega), field_append_right (n := 16) (by simp) (by omega),
        field_append_right (n := 1) rfl (by omega), field_append_right (n := 16) (by simp) (by omega), whole _ _ 16 (by simp), addressBytes_eq]

/-- **C123**, the client: the 58 bytes that are encrypted for a request are exactly those of the table. -/
theorem C123_plaintext (d : ClientData) (bs : List Byte) :
    PlaintextLayout d.cmdHash.toNat d.counter.toNat (if d.strict then 1 else 0) d.srcIp d.dstIp bs ↔ bs = d.serialize := by
  rw [plaintextLayout_iff]
  unfold ClientData.serialize srcBytes
  exact Iff.rfl

/-- **C123**, the server: whoever builds 58 bytes after the table (any byte but 0 standing for strict) is understood: command, number and destination are read as they were meant, and so is the
claimed source unless it is `::`. -/
theorem C123_server_reads (hash : U64) (counter : U128) (strict : Byte) (src : Option Ip) (dst : Ip) (bs : List Byte)
    (h : PlaintextLayout hash.toNat counter.toNat strict src dst bs) :
    ClientData.deserialize bs = .ok ⟨hash, counter, decide (strict ≠ 0), (src.filter (· ≠ .v6 0)).map normalizeIp, normalizeIp dst⟩ := by
  rw [(plaintextLayout_iff _ _ _ _ _ _).mp h, deserialize_fields _ _ _ _ _ (by simp) (by simp) (by simp), U64_ofBE_beBytes, U128_ofBE_beBytes, (C06_wire_form dst dst).2.2]
  cases src with
  | none => rfl
  | some ip =>
    have hz := serializeIp_eq_zeros (ip := ip)
    show Except.ok _ = Except.ok _
    congr 2
    show (if serializeIp ip ≠ zeros 16 then some (deserializeIp (serializeIp ip)) else none) = _
    by_cases hi : ip = .v6 0
    · rw [if_neg (by simpa using hz.mpr hi), hi]
      rfl
    · rw [if_pos (fun he => hi (hz.mp he)), (C06_wire_form ip ip).2.2]
      show _ = Option.map normalizeIp (if decide (ip ≠ .v6 0) = true then some ip else none)
      rw [if_pos (by simpa using hi)]
      rfl

/-- **C123**, the client: the datagram is exactly that of the table. -/
theorem C123_datagram (A : Aead) (hA : A.Correct) (h : CryptoHandler) (hid : h.id.length = 8) (hkey : h.key.length = 32) (iv p bs : List Byte) (hiv : iv.length = 12) (hp : p.length = 58) :
    DatagramLayout A h.id h.key iv p bs ↔ encode A h (some iv) p = .ok bs := by
  have ht := hA.tag_length h.key iv p hkey hiv
  have hc := (hA.ct_length h.key iv p hkey hiv).trans hp
  have he : encode A h (some iv) p = .ok (h.id ++ (iv ++ (A.enc h.key iv p).1 ++ (A.enc h.key iv p).2)) := by
    unfold encode CryptoHandler.encrypt
    simp only
    rw [if_neg (by rw [hc]; simp [PLAINTEXT_SIZE])]
  rw [he]
  constructor
  · rintro ⟨h0, h1, h2, h3, h4⟩
    rw [← field_all bs, h0, field_cut bs 0 36 94 (by omega) (by omega), field_cut bs 0 20 36 (by omega) (by omega), field_cut bs 0 8 20 (by omega) (by omega), h1, h2, h3, h4]
    simp only [List.append_assoc]
  · intro hb
    have hb := Except.ok.inj hb
    have e : bs = h.id ++ (iv ++ ((A.enc h.key iv p).1 ++ ((A.enc h.key iv p).2 ++ []))) := by
      rw [← hb]; simp only [List.append_assoc, List.append_nil]
    have whole : ∀ (xs ys : List Byte) (n : Nat), xs.length = n → field (xs ++ ys) 0 n = xs := fun xs ys n hn => slice_zero_append xs ys n hn
    refine ⟨by rw [← hb]; simp [hid, hiv, ht, hc], ?_, ?_, ?_, ?_⟩
    · rw [e, whole _ _ 8 hid]
    · rw [e, field_append_right hid (by omega), whole _ _ 12 hiv]
    · rw [e, field_append_right hid (by omega), field_append_right hiv (by omega), whole _ _ 16 ht]
    · rw [e, field_append_right hid (by omega), field_append_right hiv (by omega), field_append_right ht (by omega), whole _ _ 58 hc]

/-- **C123**, the server: of 94 bytes the first 8 are looked up as key id; nonce, tag and ciphertext are taken from the places of the table. -/
theorem C123_server_takes (A : Aead) (h : CryptoHandler) (bs : List Byte) (hl : bs.length = 94) :
    (decode bs).1 = field bs 0 8 ∧
    h.decrypt A (decode bs).2 = (match A.dec h.key (field bs 8 20) (field bs 20 36) (field bs 36 94) with
      | none => .error .decrypt
      | some p => if p.length ≠ 58 then .error .decrypt else .ok p) := by
  refine ⟨rfl, ?_⟩
  have e1 : (bs.drop 8).take 12 = field bs 8 20 := rfl
  have e2 : slice (bs.drop 8) 12 28 = field bs 20 36 := by
    unfold slice field
    rw [List.drop_drop]
  have e3 : (bs.drop 8).drop 28 = field bs 36 94 := by
    unfold field
    rw [List.drop_drop, List.take_of_length_le (by simp [hl])]
  show (match A.dec h.key ((bs.drop 8).take 12) (slice (bs.drop 8) 12 28) ((bs.drop 8).drop 28) with
      | none => Except.error Err.decrypt
      | some p => if p.length ≠ 58 then .error .decrypt else .ok p) = _
  rw [e1, e2, e3]

/-- **C123**, the message to the commander is exactly that of the table. -/
theorem C123_message (d : CommanderData) (bs : List Byte) : MessageLayout d.cmdHash.toNat d.ip bs ↔ bs = d.toBytes := by
  unfold CommanderData.toBytes
  constructor
  · rintro ⟨h0, h1, h2⟩
    rw [bigEndian_eq] at h1
    rw [addressBytes_eq] at h2
    rw [← field_all bs, h0, field_cut bs 0 8 24 (by omega) (by omega), h1, h2]
  · rintro rfl
    refine ⟨by simp, ?_, ?_⟩
    · rw [bigEndian_eq]; exact slice_zero_append _ _ 8 (by simp)
    · rw [field_append_right (n := 8) (by simp) (by omega), addressBytes_eq]
      have := field_all (serializeIp d.ip)
      rwa [serializeIp_length] at this

/-- **C123**, the commander: whoever builds 24 bytes after the table is understood. -/
theorem C123_commander_reads (hash : U64) (ip : Ip) (bs : List Byte) (h : MessageLayout hash.toNat ip bs) : CommanderData.ofBytes bs = { cmdHash := hash, ip := normalizeIp ip } := by
  rw [(C123_message ⟨hash, ip⟩ bs).mp h]
  unfold CommanderData.ofBytes CommanderData.toBytes
  rw [slice_zero_append _ _ 8 (by simp), U64_ofBE_beBytes, List.drop_left' (by simp), (C06_wire_form ip ip).2.2]

/-- **C123**, the counter file: what is written is the number in 16 bytes, most significant first, and nothing else. -/
theorem C123_counter_file (c : Counter) (w : World) (hok : (c.write w).1 = .ok ()) :
    ∃ f, (c.write w).2.fs c.path = some f ∧ f.data = bigEndian 16 c.count.toNat := by
  have h := writeAtomic_spec c.path (beBytes 16 c.count.toNat) w
  rcases h.result with ⟨_, _, hn⟩ | ⟨⟨f, hf, hd, _⟩, _⟩
  · exact absurd hok hn
  · exact ⟨f, hf, by rw [hd, bigEndian_eq]⟩

/-- **C123**, on the wire: whatever happens during a `send`, every datagram has the documented layout, with the number of the command (BLAKE2b with 64 bits of its name), the counter, the
strict byte unless `--permissive` was given, the address given with `--ip` and the address it is sent to, each at its place. -/
theorem C123_sent (A : Aead) (hA : A.Correct) (dir : Path) (held : Bool) (cmd : SendCmd) (env : SendEnv) (w w' : World) (o : Out Unit)
    (hrnd : ∀ i iv, env.rnd i = some iv → iv.length = 12) (hrun : runSend A nameNumber dir held cmd env w = (o, w')) (ip : Ip) (port : Nat) (c : U128) (bytes : List Byte)
    (hsent : .udp ip port c bytes ∈ w'.log.drop w.log.length) :
    ∃ key h iv p src, env.keyText = some key ∧ CryptoHandler.create (trim key) = .ok h ∧ DatagramLayout A h.id h.key iv p bytes ∧
      PlaintextLayout (nameNumber cmd.command).toNat c.toNat (if cmd.permissive then 0 else 1) src ip p ∧
      (cmd.ip = none → src = none) ∧ ∀ t, cmd.ip = some t → ∃ a, parseIp t = some a ∧ src = some a := by
  have h := runSend_asked A nameNumber dir held cmd env w
  unfold wp at h
  rw [hrun] at h
  obtain ⟨_, key, hd, src, address, dsts, h1, h2, h3, h4, h5, h6, i, iv, h7, h8⟩ := h.drop _ hsent ip port c bytes rfl
  obtain ⟨_, hid, hk⟩ := (create_ok_iff _ _).1 h2
  refine ⟨key, hd, iv, _, src, h1, h2, (C123_datagram A hA hd hid hk iv _ bytes (hrnd i iv h7) (serialize_length _)).mpr h8, ?_, ?_, ?_⟩
  · have := (C123_plaintext _ _).mpr (rfl : ClientData.serialize ⟨nameNumber cmd.command, c, !cmd.permissive, src, ip⟩ = _)
    cases hp : cmd.permissive <;> rw [hp] at this <;> exact this
  · intro hn
    rw [hn] at h3
    cases h3
    rfl
  · intro t ht
    rcases ipOptionMeans_of h3 with ⟨hn, _⟩ | ⟨t', a, ht', ha, rfl⟩
    · rw [ht] at hn; cases hn
    · rw [ht] at ht'
      cases ht'
      exact ⟨a, ha, rfl⟩

/-- A request by its bytes: command number 1, counter 258, strict, claiming 1.2.3.4, for ::1. -/
example : (⟨1, 258, true, some (.v4 0x01020304), .v6 1⟩ : ClientData).serialize =
    [1, 0, 0, 0, 0, 0, 0, 0, 1, 0, 0, 0, 0, 0, 0, 0, 0, 0, 0, 0, 0, 0, 0, 1, 2, 1, 0, 0, 0, 0, 0, 0, 0, 0, 0, 0, 255, 255, 1, 2, 3, 4, 0, 0, 0, 0, 0, 0, 0, 0, 0, 0, 0, 0, 0, 0, 0, 1] := by
  decide +kernel

/-- The hypothesis of `C123_server_reads` can be met with every strict byte. -/
example (strict : Byte) : PlaintextLayout 1 258 strict none (.v6 1) ([1] ++ beBytes 8 1 ++ beBytes 16 258 ++ [strict] ++ zeros 16 ++ serializeIp (.v6 1)) :=
  (plaintextLayout_iff _ _ _ _ _ _).mpr rfl

example : MessageLayout 1 (.v4 0x01020304) [0, 0, 0, 0, 0, 0, 0, 1, 0, 0, 0, 0, 0, 0, 0, 0, 0, 0, 255, 255, 1, 2, 3, 4] :=
  (C123_message ⟨1, .v4 0x01020304⟩ _).mpr (by decide +kernel)

/-- A counter that is written. -/
example : (Counter.write ⟨"/c/counter".toList, 258⟩ (exDisk none [])).1 = .ok () := by decide +kernel

/-- Datagrams that are sent: the hypotheses of `C123_sent`. -/
example : (Spec.datagrams (runSend toyAead nameNumber "/c".toList false exOpen (exClientEnv exClientKey) (exDisk (some (beBytes 16 5000)) [])).2.log).map (fun x => (x.1, x.2.1, x.2.2.1)) =
    [(.v4 0x0a000002, 80, 5001), (.v6 1, 80, 5002)] := by decide +kernel

end Ruroco
