import Verif.Model.History
import Verif.Spec.Server
import Verif.Spec.Keys

/-!
# Specification: a gate with one number per key

What the server is, seen from outside: a gate that knows a number for each key and lets a request through if its number is larger, keeping that number from then on. There are no files, buffers
or system calls here, only what is remembered while the gate is open (`numbers`), what will be remembered when it is opened again (`disk`), and what a power loss may bring back (`back`).
-/

namespace Ruroco.Spec

/-- The number of each key, if it has one. -/
abbrev Numbers := List Byte → Option U128

/-- Key `k` gets number `c`. -/
def Numbers.put (n : Numbers) (k : List Byte) (c : U128) : Numbers := fun k' => if k' = k then some c else n k'

/-- Those of the keys that have no number get number `t`. -/
def Numbers.fill (n : Numbers) (keys : List CryptoHandler) (t : U128) : Numbers := fun k => (n k).or (if k ∈ keys.map (·.id) then some t else none)

/-- `n'` is `n`, except that some of the keys that had no number may have got number `t`. -/
def Numbers.Partly (n : Numbers) (keys : List CryptoHandler) (t : U128) (n' : Numbers) : Prop :=
  ∀ k, n' k = n k ∨ (n k = none ∧ k ∈ keys.map (·.id) ∧ n' k = some t)

/-- More keys than a file can hold (2^32). -/
def Numbers.Many (n : Numbers) : Prop := ∀ l : List (List Byte), (∀ k, n k ≠ none → k ∈ l) → 2 ^ 32 ≤ l.length

/-- What a file says; `none`: it cannot be read. No file: no key has a number. -/
def numbersIn : Option File → Option Numbers
  | none => some (fun _ => none)
  | some f => (decodeBl f.data).map (fun m k => m.get k)

/-- The keys of a directory: there is at least one key file, each holds a valid key, and their ids differ. -/
def LoadsKeys (dir : Option (List DirEntry)) (keys : List CryptoHandler) : Prop :=
  open Classical in ∃ es, dir = some es ∧ (es.filter (fun e => decide (IsKeyFile e))).map keyOf = keys.map some ∧ keys ≠ [] ∧ (keys.map (·.id)).Nodup

/-- An open gate. -/
structure OpenGate where
  keys : List CryptoHandler
  numbers : Numbers
  cfg : ServerCfg
  /-- how many datagrams it has seen -/
  seen : Nat

/-- The gate. -/
structure Gate where
  running : Option OpenGate
  disk : Option Numbers
  back : List (Option Numbers)

/-- The datagram `dg` from `src` at time `now` is a request `d` that the gate lets through. -/
structure Lets (A : Aead) (g : OpenGate) (now : Nat) (src : Ip) (dg : List Byte) (d : ClientData) : Prop where
  size : 94 ≤ dg.length
  sealed : ∃ k ∈ g.keys, k.id = dg.take 8 ∧ Seals A k.key dg d
  newer : ∃ v, g.numbers (dg.take 8) = some v ∧ v.toNat < d.counter.toNat
  notFuture : d.counter.toNat ≤ now + g.cfg.skewSeconds.toNat * 1000000000
  dst : d.dstIp ∈ g.cfg.ips
  src : d.strict = true → ∀ ip, d.srcIp = some ip → SameHost ip src

/-- Something goes wrong around the server: a system call fails or the process is killed in it, the clock cannot be read `n` times, or the numbers `m` to be kept are more than a file can hold. -/
def Trouble (n : Nat) (env : Env) (m : Numbers) : Prop := (∃ c ∈ env.oracle, c ≠ .ok) ∨ m.Many ∨ ¬ ∃ (ts : List U128) (c : List (Option U128)), ts.length = n ∧ env.clock = ts.map some ++ c

/-- What comes out: datagram, its number, and what is handed to the commander. -/
abbrev Output := List (List Byte × U128 × List Byte)

/-- What comes out for a request: the message or a beginning of it, or nothing; without trouble, the message. -/
def Comes (env : Env) (m : Numbers) (src : Ip) (dg : List Byte) (d : ClientData) (out : Output) : Prop :=
  (out = [] ∨ ∃ k, out = [(dg.take 94, d.counter, (message d (normalizeIp src)).take k)]) ∧ (¬ Trouble 2 env m → out = [(dg.take 94, d.counter, message d (normalizeIp src))])

/-- One event at the gate. -/
inductive GateStep (A : Aead) : Gate → Ev → Output → Gate → Prop
  /-- it is opened: every key has the number it had, or the time if it had none -/
  | started (n : Numbers) (back : List (Option Numbers)) (env : Env) (cfg : ServerCfg) (senv : StartEnv) (keys : List CryptoHandler) (t : U128) (hk : LoadsKeys senv.dir keys)
      (ht : some t ∈ env.clock) : GateStep A ⟨none, some n, back⟩ (.start env cfg senv) [] ⟨some ⟨keys, n.fill keys t, cfg, 0⟩, some (n.fill keys t), []⟩
  /-- it is not opened, for one of these reasons -/
  | notStarted (d d' : Option Numbers) (back back' : List (Option Numbers)) (env : Env) (cfg : ServerCfg) (senv : StartEnv)
      (why : d = none ∨ (¬ ∃ keys, LoadsKeys senv.dir keys) ∨ senv.bindOk = false ∨ ∃ n keys t, d = some n ∧ LoadsKeys senv.dir keys ∧ Trouble 3 env (n.fill keys t))
      (hd : ∀ x ∈ d' :: back', x ∈ d :: back ∨ ∃ n keys t n', d = some n ∧ LoadsKeys senv.dir keys ∧ some t ∈ env.clock ∧ n.Partly keys t n' ∧ x = some n') :
      GateStep A ⟨none, d, back⟩ (.start env cfg senv) [] ⟨none, d', back'⟩
  /-- a datagram is ignored, for one of these reasons: trouble, it is not a request to let through, as many have been seen as the rate limits allow -/
  | ignored (g : OpenGate) (d : Option Numbers) (back : List (Option Numbers)) (env : Env) (dg : List Byte) (src : Ip) (rd : Readings) (tLog : Nat)
      (why : Trouble 2 env g.numbers ∨ (∀ now r, env.clock.head? = some (some now) → ¬ Lets A g now.toNat src dg r) ∨ g.cfg.maxPerIp ≤ g.seen ∨ g.cfg.maxGlobal ≤ g.seen) :
      GateStep A ⟨some g, d, back⟩ (.packet env dg src rd tLog) [] ⟨some { g with seen := g.seen + 1 }, d, back⟩
  /-- a request is let through -/
  | through (g : OpenGate) (d : Option Numbers) (back : List (Option Numbers)) (env : Env) (dg : List Byte) (src : Ip) (rd : Readings) (tLog : Nat) (now : U128) (r : ClientData) (out : Output)
      (hn : env.clock.head? = some (some now)) (hl : Lets A g now.toNat src dg r) (hout : Comes env g.numbers src dg r out) :
      GateStep A ⟨some g, d, back⟩ (.packet env dg src rd tLog) out
        ⟨some { g with numbers := g.numbers.put (dg.take 8) r.counter, seen := g.seen + 1 }, some (g.numbers.put (dg.take 8) r.counter), []⟩
  /-- the server is killed while it keeps the number of a request that is to be let through: the number may be kept or not, and nothing comes out -/
  | killedKeeping (g : OpenGate) (d d' : Option Numbers) (back back' : List (Option Numbers)) (env : Env) (dg : List Byte) (src : Ip) (rd : Readings) (tLog : Nat) (now : U128) (r : ClientData)
      (hn : env.clock.head? = some (some now)) (hl : Lets A g now.toNat src dg r) (ht : Trouble 2 env g.numbers) (hd : ∀ x ∈ d' :: back', x ∈ d :: back ∨ x = some (g.numbers.put (dg.take 8) r.counter)) :
      GateStep A ⟨some g, d, back⟩ (.packet env dg src rd tLog) [] ⟨none, d', back'⟩
  /-- the server is killed after that -/
  | killedHandingOver (g : OpenGate) (d : Option Numbers) (back : List (Option Numbers)) (env : Env) (dg : List Byte) (src : Ip) (rd : Readings) (tLog : Nat) (now : U128) (r : ClientData) (out : Output)
      (hn : env.clock.head? = some (some now)) (hl : Lets A g now.toNat src dg r) (ht : Trouble 2 env g.numbers) (hout : Comes env g.numbers src dg r out) :
      GateStep A ⟨some g, d, back⟩ (.packet env dg src rd tLog) out ⟨none, some (g.numbers.put (dg.take 8) r.counter), []⟩
  | kill (g : Option OpenGate) (d : Option Numbers) (back : List (Option Numbers)) : GateStep A ⟨g, d, back⟩ .kill [] ⟨none, d, back⟩
  | power (g : Option OpenGate) (d d' : Option Numbers) (back : List (Option Numbers)) (hd : d' ∈ d :: back) : GateStep A ⟨g, d, back⟩ .power [] ⟨none, d', []⟩
  | others (g : Gate) : GateStep A g .others [] g

/-- A sequence of events at the gate, and what comes out. -/
inductive GateRun (A : Aead) : Gate → List Ev → Output → Gate → Prop
  | nil (g : Gate) : GateRun A g [] [] g
  | snoc {g g' g'' : Gate} {evs : List Ev} {e : Ev} {out out' : Output} : GateRun A g evs out g' → GateStep A g' e out' g'' → GateRun A g (evs ++ [e]) (out ++ out') g''

end Ruroco.Spec
