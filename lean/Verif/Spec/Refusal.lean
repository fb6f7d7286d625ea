import Verif.Model.Refusal
import Verif.Spec.ServerLog

/-!
# What a refusal in the server's log means

`Holds`: what the text of the refusal says is so.
-/

namespace Ruroco.Spec

/-- The key the datagram names is `h`, and the datagram seals the request `d` under it. -/
def Carries (A : Aead) (s : Server) (dg : List Byte) (d : ClientData) : Prop :=
  ∃ h, s.handlers.get (dg.take 8) = some h ∧ Seals A h.key dg d

/-- What opening the datagram with the key it names gives: `none` if it was not sealed with that key. -/
def OpensTo (A : Aead) (s : Server) (dg : List Byte) (r : Option (List Byte)) : Prop :=
  ∃ h, s.handlers.get (dg.take 8) = some h ∧ A.dec h.key (slice dg 8 20) (slice dg 20 36) (slice dg 36 94) = r

/-- The refusal is true of the datagram `dg` that arrived from `src` when the clock said `now` (`none`: it could not be read). For the rate limits see C19 to C21. -/
def Holds (A : Aead) (s : Server) (dg : List Byte) (src : SockAddr) (rd : Readings) (now : Option U128) : Refusal → Prop
  | .badSize count from_ => count = dg.length ∧ dg.length < 94 ∧ from_ = src
  | .rateIp ip max => ip = normalizeIp src.ip ∧ max = s.cfg.maxPerIp ∧ (s.rl.check ip max s.cfg.maxGlobal rd).1 = .error .rateIp
  | .rateGlobal max => max = s.cfg.maxGlobal ∧ (s.rl.check (normalizeIp src.ip) s.cfg.maxPerIp max rd).1 = .error .rateGlobal
  | .unknownKey id => id = dg.take 8 ∧ s.handlers.get id = none
  | .unopened => OpensTo A s dg none
  | .badLength => ∃ pt, OpensTo A s dg (some pt) ∧ pt.length ≠ 58
  | .clock => now = none
  | .version v => v ≠ 1 ∧ ∃ rest, OpensTo A s dg (some (v :: rest))
  | .replayed id counter stored => id = dg.take 8 ∧ stored = s.bl.map.get id ∧ (∀ v, stored = some v → counter.toNat ≤ v.toNat) ∧ ∃ d, Carries A s dg d ∧ d.counter = counter
  | .future id counter max =>
    id = dg.take 8 ∧ max.toNat < counter.toNat ∧ (∃ t, now = some t ∧ max.toNat = t.toNat + s.cfg.skewSeconds.toNat * 1000000000) ∧ ∃ d, Carries A s dg d ∧ d.counter = counter
  | .host id ips dst => id = dg.take 8 ∧ ips = s.cfg.ips ∧ dst ∉ ips ∧ ∃ d, Carries A s dg d ∧ d.dstIp = dst
  | .source id claimed actual =>
    id = dg.take 8 ∧ actual = normalizeIp src.ip ∧ (∃ ip, claimed = some ip ∧ ip ≠ actual) ∧ ∃ d, Carries A s dg d ∧ d.strict = true ∧ d.srcIp = claimed
  | .save => ∃ t d, now = some t ∧ Acceptable A s t.toNat src.ip dg d

/-- A port is below 65536. -/
def PortOk : Refusal → Prop
  | .badSize _ src => src.port < 65536
  | _ => True

/-- The text begins like one of the server's other lines about datagrams: an announcement, or one of its two outcomes. -/
def LooksAccepted (t : List Char) : Prop :=
  "Valid data".toList <+: t ∨ "Successfully sent".toList <+: t ∨ "Could not send".toList <+: t

end Ruroco.Spec
