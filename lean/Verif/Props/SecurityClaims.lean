import Verif.Props.KeyLife
import Verif.Props.EndToEnd
import Verif.Spec.Terms.SecurityClaims

/-!
# Claims of SECURITY.md: C77 (rotating keys), C78 (what a compromised server can trigger)
-/

namespace Ruroco

open Spec (Acceptable Seals RateOk forwards message IsKeyFile keyOf SameHost spawns commandText onDisk request)

/-! ## C77 -/

/-- **C77**, proved part: after a (re)start, every key found in a key file can be used at once, old ones and new ones side by side: for a key used before, any datagram newer than the last one acted
on before the restart is acted on; for a new key, any datagram newer than the start. Missing: without a restart a new key can not be used, see `C77_needs_restart`. -/
theorem C77_keys_side_by_side_partial (A : Aead) (cfg : ServerCfg) (senv : StartEnv) (hord : ∀ m, (senv.order m).Perm m) (w w1 : World) (s : Server)
    (hstart : Server.create cfg senv w = (.ok s, w1)) (hstat : .statFailed (blocklistPath cfg.blDir) ∉ w1.log) (hlen : s.bl.map.length < 2 ^ 32) :
    ∃ start, some start ∈ w.clock ∧ ∀ k, HasKey senv.dir k → ∀ (dg : List Byte) (src : Ip) (d : ClientData) (rd : Readings) (rl : RateLimiter) (now t : U128) (c : List (Option U128)) (w2 : World),
      Proper A cfg k now.toNat src dg d →
      (∀ v, onDisk w (blocklistPath cfg.blDir) k.id = some v → v.toNat < d.counter.toNat) →
      (onDisk w (blocklistPath cfg.blDir) k.id = none → start.toNat < d.counter.toNat) →
      RateOk s src rd rl → AllOk w2 → w2.clock = some now :: some t :: c →
      forwards (s.iteration A dg src rd w2).2.log = forwards w2.log ++ [(w2.cur, d.counter, message d (normalizeIp src))] := by
  obtain ⟨hcfg, _, _, hwf, _⟩ := (created_of_step hord hstart).ok s rfl
  obtain ⟨_, h2, _⟩ := C16_start_preserves_counters_partial cfg senv hord w w1 _ hstart hstat
  obtain ⟨hold, floor, hfl, hnew⟩ := h2 s rfl
  obtain ⟨es, hes, _, _, huse⟩ := C24_usable_keys cfg senv hord w w1 s hstart
  refine ⟨floor, hfl, ?_⟩
  intro k hk dg src d rd rl now t c w2 hp h1 h3 hr hok hclk
  obtain ⟨es', he', e, hm, hkf, hko⟩ := hk
  rw [hes] at he'
  cases he'
  have hget : s.handlers.get k.id = some k := (huse k.id k).2 ⟨e, hm, hkf, hko, rfl⟩
  have hmem : k.id ∈ s.handlers.map Prod.fst := by
    exact List.mem_map.2 ⟨(k.id, k), handlers_mem_of_get hget, rfl⟩
  have hfresh : ∃ v, s.bl.map.get k.id = some v ∧ v.toNat < d.counter.toNat := by
    cases hd : onDisk w (blocklistPath cfg.blDir) k.id with
    | some v => exact ⟨v, hold k.id v hd, h1 v hd⟩
    | none => exact ⟨floor, (hnew k.id hmem hd).1, h3 hd⟩
  have hacc : Acceptable A s now.toNat src dg d :=
    ⟨hp.size, ⟨k, by rw [hp.id]; exact hget, hp.sealed⟩, by rw [hp.id]; exact hfresh, by rw [hcfg]; exact hp.notFuture, by rw [hcfg]; exact hp.dst, hp.src⟩
  exact ((C15_forwards_iff_acceptable A s hwf hlen dg src rd w2 _ _ hok now t c hclk rfl).2 rl d hr hacc).2

/-- Both keys in the directory, nothing stored yet. -/
def exBothKeys : StartEnv := ⟨some [⟨"a.key".toList, true, some exKeyText⟩, ⟨"b.key".toList, true, some exSecondText⟩], id, true, 0⟩

/-- The hypotheses of `C77_keys_side_by_side_partial`: a start that works, with both keys; a proper datagram of each, newer than the start (at 1000). -/
example : (match Server.create exServer.cfg exBothKeys (exEmpty.withEnv ⟨[], [some 1000, some 1000, some 1000]⟩ []) with
      | (.ok s, w) => decide (s.bl.map.length = 2) && decide (.statFailed (blocklistPath exServer.cfg.blDir) ∉ w.log) && (s.rl.check (.v4 0x0a000001) s.cfg.maxPerIp s.cfg.maxGlobal exReadings).1.isOk
      | _ => false) = true ∧
    HasKey exBothKeys.dir exKey ∧ HasKey exBothKeys.dir exSecondKey ∧
    Proper toyAead exServer.cfg exKey 1100 (.v4 0x0a000001) (exSealed 5000) exRequest ∧
    Proper toyAead exServer.cfg exSecondKey 1100 (.v4 0x0a000001) (exSecondSealed 5500) { exRequest with counter := 5500 } := by
  have src : ∀ (c : U128), { exRequest with counter := c }.strict = true → ∀ ip, { exRequest with counter := c }.srcIp = some ip → SameHost ip (.v4 0x0a000001) := by
    intro c _ ip h
    cases (show some (.v4 0x0a000001) = some ip from h)
    exact (normalizeIp_eq_iff_sameHost _ _).1 rfl
  refine ⟨by decide +kernel, ⟨_, rfl, ⟨"a.key".toList, true, some exKeyText⟩, by simp, ?_, by decide +kernel⟩,
    ⟨_, rfl, ⟨"b.key".toList, true, some exSecondText⟩, by simp, ?_, by decide +kernel⟩,
    ⟨by decide +kernel, by decide +kernel, ⟨exRequest.serialize, by decide +kernel, by decide +kernel, by decide +kernel⟩, by decide +kernel, by decide +kernel, src 5000⟩,
    ⟨by decide +kernel, by decide +kernel, ⟨{ exRequest with counter := 5500 }.serialize, by decide +kernel, by decide +kernel, by decide +kernel⟩, by decide +kernel, by decide +kernel, src 5500⟩⟩
  · rw [← keyFile_iff]; decide +kernel
  · rw [← keyFile_iff]; decide +kernel

/-- **C77**: an old key is given up by deleting its files and restarting; the others are not affected: their stored counters are kept (`C77_keys_side_by_side_partial` applies to this start too), and
those of the old key as well, so that bringing it back later does not bring back used counters. -/
theorem C77_retired_key_keeps_counter (cfg : ServerCfg) (senv : StartEnv) (hord : ∀ m, (senv.order m).Perm m) (w w1 : World) (s : Server)
    (hstart : Server.create cfg senv w = (.ok s, w1)) (hstat : .statFailed (blocklistPath cfg.blDir) ∉ w1.log) (id : List Byte) (hgone : ∀ k, HasKey senv.dir k → k.id ≠ id) :
    s.handlers.get id = none ∧ ∀ v, onDisk w (blocklistPath cfg.blDir) id = some v → onDisk w1 (blocklistPath cfg.blDir) id = some v ∧ s.bl.map.get id = some v := by
  obtain ⟨h1, h2, _⟩ := C16_start_preserves_counters_partial cfg senv hord w w1 _ hstart hstat
  obtain ⟨es, hes, _, _, huse⟩ := C24_usable_keys cfg senv hord w w1 s hstart
  refine ⟨?_, fun v hv => ⟨h1 id v hv, (h2 s rfl).1 id v hv⟩⟩
  cases hg : s.handlers.get id with
  | none => rfl
  | some k =>
    obtain ⟨e, he, hk, hko, hid⟩ := (huse id k).1 hg
    exact absurd hid (hgone k ⟨es, hes, e, he, hk, hko⟩)

/-- A second key is generated and its file copied beside the first while the server runs (nothing the server notices: it looks for key files when it starts only); then the client switches. -/
def exSwitch : List Ev := [exStart 1000 [], exPacket 5000 1100 [], exSecondPacket 5500 2200]

/-- **C77 is false as stated** ("drop-in with no downtime"): a running server does not see a new key file; until it is restarted it refuses the datagrams of a client that has switched, however
fresh they are. -/
theorem C77_needs_restart : ∃ (evs : List Ev) (s : Sys), Run toyAead "/s".toList ⟨exEmpty, none⟩ evs s ∧ exSecondPacket 5500 2200 ∈ evs ∧ s.srv ≠ none ∧
    Proper toyAead exServer.cfg exSecondKey 2200 (.v4 0x0a000001) (exSecondSealed 5500) { exRequest with counter := 5500 } ∧ ∀ x ∈ forwards s.w.log, x.1 ≠ exSecondSealed 5500 := by
  refine ⟨exSwitch, exSwitch.foldl (exec toyAead) ⟨exEmpty, none⟩, run_exec _ _ ?_, by simp [exSwitch], ?_, ?_, ?_⟩
  · refine ⟨⟨rfl, rfl⟩, ?_, ?_, trivial⟩ <;> first | rfl | decide +kernel
  · have : (exSwitch.foldl (exec toyAead) ⟨exEmpty, none⟩).srv.isSome = true := by decide +kernel
    intro h
    rw [h] at this
    cases this
  · refine ⟨by decide +kernel, by decide +kernel, ?_, by decide +kernel, by decide +kernel, ?_⟩
    · exact ⟨{ exRequest with counter := 5500 }.serialize, by decide +kernel, by decide +kernel, by decide +kernel⟩
    · intro _ ip h
      cases (show some (.v4 0x0a000001) = some ip from h)
      exact (normalizeIp_eq_iff_sameHost _ _).1 rfl
  · decide +kernel

/-! ## C78 -/

/-- **C78**, proved part: whatever is written to the commander's socket, on however many connections, a command is run only if the hash of its name was sent. Missing: that the hash must have been
seen in traffic, see `C78_guessed_name`. -/
theorem C78_hash_needed_partial (hash : List Char → U64) (commands : List (List Char × CommandValue)) (c : Commander) (hc : c.cmds = getHashToCmd hash commands) (pre : Path) (conns : List Conn)
    (w : World) (seen : U64 → Prop) (hseen : ∀ k ∈ conns, ∀ h ip, request k = some (h, ip) → seen h) :
    ∃ l, (c.serve pre conns w).2.log = w.log ++ l ∧ ∀ cmd ip, .spawn cmd ip ∈ l → ∃ name v, (name, v) ∈ commands ∧ commandText v = cmd ∧ seen (hash name) := by
  obtain ⟨l, h1, h2⟩ := C26_only_configured_run hash commands c hc pre conns w _ _ rfl
  refine ⟨l, h1, fun cmd ip hm => ?_⟩
  obtain ⟨k, hk, name, v, hv, ht, hr⟩ := h2 cmd ip hm
  exact ⟨name, v, hv, ht, hseen k hk _ _ hr⟩

/-- **C78 is false as stated**: the hash is a fixed function of the name and involves no secret. Whoever can write to the socket and guesses a name - the client's default name is `default` - has a
message, the same for all installations and made without any traffic, on which every commander with a command of that name runs it. -/
theorem C78_guessed_name (hash : List Char → U64) (name : List Char) (ip : Ip) (hip : normalizeIp ip = ip) : ∃ msg : List Byte, msg.length = 24 ∧
    ∀ (c : Commander) (commands : List (List Char × CommandValue)) (v : CommandValue) (pre : Path) (env : ChildEnv) (w : World), Executes c hash commands name v ip →
      Ends c (.stream false msg env) → Works 2 w → ∃ l, (c.serve pre [.stream false msg env] w).2.log = w.log ++ l ∧ spawns l = [(commandText v, ip)] :=
  ⟨(CommanderData.mk (hash name) ip).toBytes, (C05_ipc_round_trip _).1, fun c commands v pre env w hx hends hw =>
    commander_runs c hash commands name v ip hx hip ip ((normalizeIp_eq_iff_sameHost ip ip).1 rfl) pre env hends w hw⟩

/-- A command nobody has ever sent is run: the commander of C26, its command "close!". -/
example : Executes exCommander exHash [("open".toList, .plain "ufw allow".toList), ("close!".toList, .detailed "ufw deny".toList (some 5))] "close!".toList (.detailed "ufw deny".toList (some 5)) (.v4 0x08080808) ∧
    normalizeIp (.v4 0x08080808) = .v4 0x08080808 :=
  ⟨⟨rfl, by simp, by decide +kernel, by decide +kernel, Or.inr (by rw [← C27_refused_iff_in_block]; decide +kernel)⟩, by decide +kernel⟩

end Ruroco
