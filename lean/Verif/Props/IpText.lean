import Verif.Lemmas.IpText
import Verif.Props.AddressText
import Verif.Spec.Address

/-! # C36, C47, C48: address text -/

namespace Ruroco
open Spec

/-! ## C48 -/

/-- **C48.** Parsing the canonical text of any IP address yields that address. -/
theorem C48_parse_show (ip : Ip) : parseIp (showIp ip) = some ip := by
  unfold parseIp readIp
  cases ip with
  | v4 a =>
    have := readIpv4_show a.isLt noDigit_nil
    rw [List.append_nil] at this
    simp only [showIp, this, BitVec.ofNat_toNat, BitVec.setWidth_eq]
  | v6 a =>
    have hend : EndV6 [] := ⟨by simp, Or.inl rfl⟩
    have h4 := readIpv4_showIpv6 a hend
    have h6 := readIpv6_show a hend
    rw [List.append_nil] at h4 h6
    simp only [showIp, h4, h6, BitVec.ofNat_toNat, BitVec.setWidth_eq]

/-- **C48** for socket addresses. -/
theorem C48_parse_show_socket (s : SockAddr) (hp : s.port < 65536) : parseSockAddr (showSockAddr s) = some s := parseSockAddr_show s hp

example : showIp (.v6 0x20010db8000000000000000000000001#128) = "2001:db8::1".toList ∧ showIp (.v6 0x00010000000000010000000000000001#128) = "1:0:0:1::1".toList ∧
    showIp (.v6 0x00000000000000000000ffff0a000001#128) = "::ffff:10.0.0.1".toList ∧ showIp (.v6 0#128) = "::".toList ∧
    showIp (.v6 0x00010002000300000004000500060007#128) = "1:2:3:0:4:5:6:7".toList ∧ showIp (.v4 0x0a0000ff#32) = "10.0.0.255".toList := by
  decide +kernel
/-- The parser accepts other spellings too, and rejects near misses. -/
example : parseIp "2001:DB8:0::1".toList = some (.v6 0x20010db8000000000000000000000001#128) ∧ parseIp "2001:0db8::0001".toList = parseIp "2001:db8::1".toList ∧ parseIp "::1.2.3.4".toList = some (.v6 0x01020304#128) ∧
    parseIp "010.0.0.1".toList = none ∧ parseIp "1.2.3.256".toList = none ∧ parseIp "1.2.3".toList = none ∧ parseIp "1::2::3".toList = none ∧
    parseIp "fe80::1%eth0".toList = none ∧ parseIp "".toList = none ∧ parseIp "1.2.3.4 ".toList = none := by decide +kernel

/-! ## C47 -/

/-- **C47**, first part: only digits, `a`-`f`, `:` and `.`, and at least one of them. -/
theorem C47_chars (ip : Ip) : showIp ip ≠ [] ∧ ∀ c ∈ showIp ip, c ∈ addressChars := by
  have hdec : ∀ n, ∀ c ∈ showRadix 10 n, c ∈ addressChars := by
    intro n c hc
    have hsub : ∀ c ∈ "0123456789abcdef".toList, c ∈ addressChars := by decide
    exact hsub c (show_chars (by omega) (by omega) c hc)
  have h4 : ∀ v, ∀ c ∈ showIpv4 v, c ∈ addressChars := by
    intro v c hc
    have hdot : '.' ∈ addressChars := by decide
    simp only [showIpv4, List.mem_append, List.mem_cons] at hc
    rcases hc with ((hc | hc | hc) | hc | hc) | hc | hc
    all_goals first
      | exact hdec _ c hc
      | (rw [hc]; exact hdot)
  constructor
  · intro h
    have := C48_parse_show ip
    rw [h] at this
    revert this
    simp [parseIp, readIp, readIpv4, readSep, readOctet, readNumber, readIpv6, readGroups, readGroup, readChar]
  · cases ip with
    | v4 a => exact h4 _
    | v6 a =>
      cases hm : toV4Mapped a with
      | none =>
        intro c hc
        have hsub : ∀ c ∈ "0123456789abcdef:".toList, c ∈ addressChars := by decide
        exact hsub c (showIpv6_chars a hm c hc)
      | some v =>
        intro c hc
        simp only [showIp, showIpv6, hm, List.mem_append] at hc
        rcases hc with hc | hc
        · have hsub : ∀ c ∈ "::ffff:".toList, c ∈ addressChars := by decide
          exact hsub c hc
        · exact h4 _ c hc

/-- **C47**, second part: the text identifies the address. -/
theorem C47_injective (ip ip' : Ip) (h : showIp ip = showIp ip') : ip = ip' := by
  have h1 := C48_parse_show ip
  rw [h, C48_parse_show ip'] at h1
  cases h1
  rfl

/-- None of the characters that can occur means anything to a shell: no white space, quote, expansion, redirection, separator or glob character. -/
theorem C47_no_shell_syntax (ip : Ip) : ∀ c ∈ showIp ip, c ∉ " \t\n\r'\"`$\\;&|<>(){}[]*?!#~=%^-+/,@_\x00".toList := by
  intro c hc
  have : ∀ c ∈ addressChars, c ∉ " \t\n\r'\"`$\\;&|<>(){}[]*?!#~=%^-+/,@_\x00".toList := by decide
  exact this c ((C47_chars ip).2 c hc)

/-! ## C36 -/

theorem parseU16_iff (t : List Char) : (∃ p, parseU16 t = some p) ↔ PortText t := by
  have hdig : ∀ c : Char, (toDigit 10 c).isSome = true ↔ c.isDigit = true := by
    intro c
    have hd : c.isDigit = true ↔ 48 ≤ c.toNat ∧ c.toNat ≤ 57 := by
      simp only [Char.isDigit, Bool.and_eq_true, decide_eq_true_eq, ge_iff_le, Char.toNat]
      rw [UInt32.le_iff_toNat_le, UInt32.le_iff_toNat_le]
      exact Iff.rfl
    rw [hd]
    unfold toDigit
    simp only
    generalize c.toNat = n
    constructor
    · intro h
      split at h
      · rename_i v hv
        split at h
        · split at hv
          · assumption
          · split at hv
            · cases hv; omega
            · split at hv
              · cases hv; omega
              · cases hv
        · cases h
      · cases h
    · intro h
      rw [if_pos h]
      simp only
      rw [if_pos (by omega)]
      rfl
  have hval : ∀ ds : List Char, (∀ c ∈ ds, c.isDigit = true) → ofDigits 10 ds = decimal ds := by
    intro ds h
    have : ∀ acc, ds.foldl (fun acc c => acc * 10 + (toDigit 10 c).getD 0) acc = ds.foldl (fun acc c => 10 * acc + (c.toNat - '0'.toNat)) acc := by
      induction ds with
      | nil => intro acc; rfl
      | cons c ds ih =>
        intro acc
        have hc := (hdig c).2 (h c (by simp))
        have hv : (toDigit 10 c).getD 0 = c.toNat - '0'.toNat := by
          have hd : 48 ≤ c.toNat ∧ c.toNat ≤ 57 := by
            have := h c (by simp)
            simp only [Char.isDigit, Bool.and_eq_true, decide_eq_true_eq, ge_iff_le] at this
            rw [UInt32.le_iff_toNat_le, UInt32.le_iff_toNat_le] at this
            exact this
          unfold toDigit
          simp only
          rw [if_pos hd]
          simp only
          rw [if_pos (by omega)]
          rfl
        rw [List.foldl_cons, List.foldl_cons, hv, Nat.mul_comm acc 10]
        exact ih (fun c hc => h c (by simp [hc])) _
    exact this 0
  constructor
  · rintro ⟨p, h⟩
    unfold parseU16 at h
    simp only at h
    split at h
    · rename_i hc
      obtain ⟨h1, h2, h3⟩ := hc
      rw [List.all_eq_true] at h2
      have h2 : ∀ c ∈ stripPlus t, c.isDigit = true := fun c hc => (hdig c).1 (h2 c hc)
      rw [hval _ h2] at h3
      cases t with
      | nil => exact absurd rfl h1
      | cons c t =>
        by_cases hp : c = '+'
        · subst hp
          exact ⟨['+'], t, rfl, Or.inr rfl, h1, h2, h3⟩
        · have : stripPlus (c :: t) = c :: t := if_neg hp
          rw [this] at h1 h2 h3
          exact ⟨[], c :: t, rfl, Or.inl rfl, h1, h2, h3⟩
    · cases h
  · rintro ⟨sign, ds, rfl, hs, hne, hd, hlt⟩
    have hst : stripPlus (sign ++ ds) = ds := by
      rcases hs with rfl | rfl
      · cases ds with
        | nil => rfl
        | cons c ds =>
          have : c ≠ '+' := by rintro rfl; exact absurd (hd '+' (by simp)) (by decide)
          exact if_neg this
      · rfl
    unfold parseU16
    simp only [hst]
    rw [if_pos ⟨hne, by rw [List.all_eq_true]; exact fun c hc => (hdig c).2 (hd c hc), by rw [hval _ hd]; exact hlt⟩]
    exact ⟨_, rfl⟩

theorem count_hostPort {host port : List Char} (hh : ':' ∉ host) (hp : ':' ∉ port) : (host ++ ':' :: port).count ':' = 1 := by
  rw [List.count_append, List.count_cons_self, List.count_eq_zero.2 hh, List.count_eq_zero.2 hp]

theorem hostPort_not_ip {t : List Char} (h : HostPort t) : parseIp t = none := by
  obtain ⟨host, port, rfl, hh, hp⟩ := h
  obtain ⟨p, hp⟩ := (parseU16_iff port).2 hp
  cases hi : parseIp (host ++ ':' :: port) with
  | none => rfl
  | some ip => exact absurd (count_hostPort hh.2 (parseU16_digits hp).1) (parseIp_colons hi)

/-- **C36**, a complete socket address is kept as typed. -/
theorem C36_socket_kept {t : List Char} {s : SockAddr} (d : Nat) (h : SocketText t s) : ensurePort t d = .ok t := by
  unfold ensurePort
  rw [(C110_socket_iff t s).2 h]
  rfl

/-- **C36**, in particular the canonical text of every socket address. -/
theorem C36_canonical_kept (s : SockAddr) (hp : s.port < 65536) (d : Nat) : ensurePort (showSockAddr s) d = .ok (showSockAddr s) :=
  C36_socket_kept d ((C110_socket_iff _ _).1 (C48_parse_show_socket s hp))

/-- An IP address without a port is not a socket address. -/
theorem ip_not_socket {t : List Char} {ip : Ip} (h : parseIp t = some ip) : parseSockAddr t = none := by
  have hbr : ∀ t', t ≠ '[' :: t' := by
    rintro t' rfl
    revert h
    unfold parseIp readIp
    rw [readIpv4_noDigit (noDigit_cons (by decide))]
    have hg : readGroups 0 8 ('[' :: t') = ([], false, '[' :: t') := by
      unfold readGroups
      simp only [readSep, if_pos, show (0 : Nat) < 7 by omega]
      rw [readIpv4_noDigit (noDigit_cons (by decide))]
      simp only
      rw [show readGroup ('[' :: t') = none from readNumber_none (noDigit_cons (by decide))]
    have : readIpv6 ('[' :: t') = none := by
      unfold readIpv6
      simp [hg, readChar]
    rw [this]
    simp
  have h6 : readSockV6 t = none := by
    unfold readSockV6
    cases hc : readChar '[' t with
    | none => rfl
    | some t' => exact absurd (readChar_some hc) (hbr t')
  unfold parseSockAddr
  rw [h6]
  cases h4 : readSockV4 t with
  | none => rfl
  | some x =>
    exfalso
    unfold readSockV4 at h4
    unfold parseIp readIp at h
    cases hi : readIpv4 t with
    | none => rw [hi] at h4; cases h4
    | some y =>
      rw [hi] at h4 h
      simp only at h4 h
      split at h
      · rename_i heq
        simp only [Option.some.injEq, Prod.mk.injEq] at heq
        rw [heq.2] at h4
        cases h4
      · cases h

/-- **C110** (no text is both an address and an address with a port). -/
theorem C110_not_both (t : List Char) (ip : Ip) (s : SockAddr) : ¬ (IpText t ip ∧ SocketText t s) := by
  rintro ⟨h1, h2⟩
  have h := ip_not_socket ((C110_ip_iff t ip).2 h1)
  rw [(C110_socket_iff t s).2 h2] at h
  cases h

/-- **C36**, a bare IP address, in whatever spelling, becomes the socket address with that IP and the default port. -/
theorem C36_bare_ip {t : List Char} {ip : Ip} (d : Nat) (h : IpText t ip) : ensurePort t d = .ok (showSockAddr ⟨ip, d⟩) := by
  replace h := (C110_ip_iff t ip).2 h
  unfold ensurePort
  rw [ip_not_socket h, h]
  rfl

/-- **C36**, a bare host name gets the default port. -/
theorem C36_bare_host {t : List Char} (d : Nat) (h : BareHost t) (hip : ∀ ip, ¬ IpText t ip) : ensurePort t d = .ok (t ++ ':' :: showRadix 10 d) := by
  replace hip : parseIp t = none := by
    cases hx : parseIp t with
    | none => rfl
    | some ip => exact absurd ((C110_ip_iff t ip).1 hx) (hip ip)
  have hs : parseSockAddr t = none := by
    unfold parseSockAddr
    have h4 : readSockV4 t = none := by
      unfold readSockV4
      cases hi : readIpv4 t with
      | none => rfl
      | some x =>
        simp only
        have hc := readIpv4_colons hi
        rw [List.count_eq_zero.2 h.2] at hc
        have : readPort x.2 = none := by
          unfold readPort
          rw [readChar_none (List.count_eq_zero.1 hc)]
        rw [this]
    have h6 : readSockV6 t = none := by
      unfold readSockV6
      cases hc : readChar '[' t with
      | none => rfl
      | some t' =>
        simp only
        cases hi : readIpv6 t' with
        | none => rfl
        | some x =>
          have := readIpv6_colons hi
          have ht := readChar_some hc
          have h0 := List.count_eq_zero.2 h.2
          rw [ht, List.count_cons_of_ne (by decide)] at h0
          omega
    rw [h4, h6]
  unfold ensurePort
  rw [hs, hip, rsplitColon_none h.2]
  simp only [Option.isSome_none, Bool.false_eq_true, if_false]
  rw [if_pos h.1]

/-- **C36**, `host:port` is kept. -/
theorem C36_host_port {t : List Char} (d : Nat) (h : HostPort t) : ensurePort t d = .ok t := by
  have hip := hostPort_not_ip h
  obtain ⟨host, port, rfl, hh, hp⟩ := h
  obtain ⟨p, hp⟩ := (parseU16_iff port).2 hp
  unfold ensurePort
  rw [hip, rsplitColon_append (parseU16_digits hp).1]
  simp only
  rw [if_pos (show host ≠ [] ∧ ':' ∉ host from hh), hp]
  split <;> rfl

/-- **C36**, anything else is rejected: the input is accepted exactly if it is one of the four kinds. -/
theorem C36_accepts_iff (t : List Char) (d : Nat) : (∃ t', ensurePort t d = .ok t') ↔ ValidDestination t := by
  constructor
  · rintro ⟨t', h⟩
    unfold ensurePort at h
    split at h
    · rename_i hs
      obtain ⟨a, ha⟩ := Option.isSome_iff_exists.1 hs
      exact Or.inl ⟨a, (C110_socket_iff t a).1 ha⟩
    · cases hi : parseIp t with
      | some ip => exact Or.inr (Or.inl ⟨ip, (C110_ip_iff t ip).1 hi⟩)
      | none =>
        rw [hi] at h
        simp only at h
        by_cases hc : ':' ∈ t
        · obtain ⟨host, port, hp, rfl⟩ := exists_last_colon hc
          rw [rsplitColon_append hp] at h
          simp only at h
          split at h
          · rename_i hh
            cases hu : parseU16 port with
            | some p => exact Or.inr (Or.inr (Or.inr ⟨host, port, rfl, hh, (parseU16_iff port).1 ⟨p, hu⟩⟩))
            | none => rw [hu] at h; cases h
          · cases h
        · rw [rsplitColon_none hc] at h
          simp only at h
          split at h
          · rename_i hne
            exact Or.inr (Or.inr (Or.inl ⟨hne, hc⟩))
          · cases h
  · intro h
    rcases h with ⟨s, h⟩ | ⟨ip, h⟩ | h | h
    · exact ⟨_, C36_socket_kept d h⟩
    · exact ⟨_, C36_bare_ip d h⟩
    · by_cases hi : ∃ ip, IpText t ip
      · obtain ⟨ip, hi⟩ := hi
        exact ⟨_, C36_bare_ip d hi⟩
      · exact ⟨_, C36_bare_host d h (fun ip hi' => hi ⟨ip, hi'⟩)⟩
    · exact ⟨_, C36_host_port d h⟩

theorem portText_show {d : Nat} (hd : d < 65536) : PortText (showRadix 10 d) := (parseU16_iff _).1 ⟨d, parseU16_show hd⟩

/-- **C36**, whatever is accepted is passed on as a complete socket address or as `host:port`. -/
theorem C36_result_has_port {t t' : List Char} {d : Nat} (hd : d < 65536) (h : ensurePort t d = .ok t') :
    (∃ s, SocketText t' s) ∨ HostPort t' := by
  rcases (C36_accepts_iff t d).1 ⟨t', h⟩ with ⟨s, hs⟩ | ⟨ip, hi⟩ | hb | hp
  · rw [C36_socket_kept d hs] at h; cases h; exact Or.inl ⟨s, hs⟩
  · rw [C36_bare_ip d hi] at h; cases h; exact Or.inl ⟨_, (C110_socket_iff _ _).1 (C48_parse_show_socket ⟨ip, d⟩ hd)⟩
  · by_cases hi : ∃ ip, IpText t ip
    · obtain ⟨ip, hi⟩ := hi
      rw [C36_bare_ip d hi] at h; cases h; exact Or.inl ⟨_, (C110_socket_iff _ _).1 (C48_parse_show_socket ⟨ip, d⟩ hd)⟩
    · rw [C36_bare_host d hb (fun ip hi' => hi ⟨ip, hi'⟩)] at h; cases h
      exact Or.inr ⟨t, _, rfl, hb, portText_show hd⟩
  · rw [C36_host_port d hp] at h; cases h; exact Or.inr hp

/-- **C36**, normalising a result again changes nothing. -/
theorem C36_idempotent {t t' : List Char} {d : Nat} (hd : d < 65536) (h : ensurePort t d = .ok t') : ensurePort t' d = .ok t' := by
  rcases C36_result_has_port hd h with ⟨s, hs⟩ | hp
  · exact C36_socket_kept d hs
  · exact C36_host_port d hp

example : ensurePort "127.0.0.1:8080".toList DEFAULT_PORT = .ok "127.0.0.1:8080".toList ∧ ensurePort "::1".toList DEFAULT_PORT = .ok "[::1]:80".toList ∧
    ensurePort "10.0.0.1".toList DEFAULT_PORT = .ok "10.0.0.1:80".toList ∧ ensurePort "example.org".toList DEFAULT_PORT = .ok "example.org:80".toList ∧
    ensurePort "example.org:34020".toList DEFAULT_PORT = .ok "example.org:34020".toList ∧ ensurePort "[::1]".toList DEFAULT_PORT = .error .config ∧
    ensurePort "host:".toList DEFAULT_PORT = .error .config ∧ ensurePort "host:65536".toList DEFAULT_PORT = .error .config ∧
    ensurePort ":80".toList DEFAULT_PORT = .error .config ∧ ensurePort "".toList DEFAULT_PORT = .error .config ∧
    ensurePort "host:1:2".toList DEFAULT_PORT = .error .config := by decide +kernel
/-- A plus sign passes: the code accepts what `u16::from_str` accepts. -/
example : ensurePort "host:+80".toList DEFAULT_PORT = .ok "host:+80".toList := by decide +kernel

end Ruroco
