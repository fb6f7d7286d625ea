import Verif.Model.Utf8
import Verif.Spec.Client

/-!
# Specification of the Execute button

What pressing the button of a saved command asks for, in terms of what is on the screen: the fields of the command and the key field.
-/

namespace Ruroco.Spec

/-- Text that was written is read back unchanged. -/
def Faithful (T : TextCodec) : Prop := ∀ t, T.dec (T.enc t) = some t

/-- The address a saved command claims: blanks around it do not count, and an empty field claims none. -/
def ClaimShown (c : CommandData) (claimed : Option Ip) : Prop :=
  (trim c.ip = [] ∧ claimed = none) ∨ (trim c.ip ≠ [] ∧ ∃ a, parseIp (trim c.ip) = some a ∧ claimed = some a)

/-- The client is in order, and pressing the button of `c` will mean: key `h`, claimed address `claimed`, destinations `dsts`, counters from `c0` on. -/
structure ButtonReady (dir : Path) (env : ExecEnv) (key : List Char) (c : CommandData) (h : CryptoHandler) (claimed : Option Ip) (dsts : List SockAddr) (c0 : U128) (w : World) : Prop where
  key : CryptoHandler.create (trim key) = .ok h
  host : ∃ full, ensurePort c.address 80 = .ok full ∧ getDestinationIps c.ipv4 c.ipv6 (env.resolve full) = .ok dsts
  claims : ClaimShown c claimed
  folder : env.hasConfDir = true
  name : ∃ d ∈ env.draws, w.fs (tempKeyPath dir d) = none
  random : ∀ i, ∃ iv, env.rnd i = some iv ∧ iv.length = 12
  disk : ∀ o ∈ w.oracle, o = Choice.ok
  clock : (∀ t ∈ w.clock, t ≠ none) ∧ dsts.length + 2 ≤ w.clock.length
  counter : counterOnDisk w (counterPath dir) = some c0.toNat ∨ (w.fs (counterPath dir) = none ∧ w.clock.head? = some (some c0))
  room : c0.toNat + dsts.length < 2 ^ 128

end Ruroco.Spec
