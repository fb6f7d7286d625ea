import Verif.Lemmas.ClientOk
import Verif.Props.Server
import Verif.Props.Commander
import Verif.Props.IpFilter
import Verif.Lemmas.Bounds
import Verif.Props.ClientHistory
import Verif.Spec.Terms.EndToEnd

/-! # C37: from `send` to the command -/

namespace Ruroco

open Spec (datagrams requestFor Seals Acceptable RateOk forwards message SameHost NonRoutable spawns commandFor commandText timeLimit counterOnDisk)

/-- A datagram made for request `d` opens, under the same key, to what the server reads for `d`. -/
theorem packet_seals {A : Aead} (hA : A.Correct) {h : CryptoHandler} (hid : h.id.length = 8) (hk : h.key.length = 32) {iv : List Byte} (hiv : iv.length = 12)
    {d : ClientData} {dg : List Byte} (he : encode A h (some iv) d.serialize = .ok dg) :
    dg.length = 94 ∧ dg.take 8 = h.id ∧ Seals A h.key dg { d with srcIp := readSrc d.srcIp, dstIp := normalizeIp d.dstIp } := by
  unfold encode at he
  rw [encrypt_ok hA hk hiv (serialize_length d)] at he
  injection he with he
  have ht := hA.tag_length h.key iv d.serialize hk hiv
  have hc := hA.ct_length h.key iv d.serialize hk hiv
  rw [serialize_length] at hc
  have hd := hA.dec_enc h.key iv d.serialize hk hiv
  generalize (A.enc h.key iv d.serialize).1 = tag at *
  generalize (A.enc h.key iv d.serialize).2 = ct at *
  subst he
  refine ⟨by simp [hid, hiv, ht, hc], by simp [hid], d.serialize, ?_, serialize_length d, deserialize_serialize d⟩
  have e1 : slice (h.id ++ (iv ++ tag ++ ct)) 8 20 = iv := by
    rw [slice_append_right _ _ 8 20 8 hid (Nat.le_refl _), List.append_assoc]
    exact slice_zero_append _ _ _ hiv
  have e2 : slice (h.id ++ (iv ++ tag ++ ct)) 20 36 = tag := by
    rw [slice_append_right _ _ 20 36 8 hid (by omega), List.append_assoc, slice_append_right _ _ _ _ 12 hiv (by omega)]
    exact slice_zero_append _ _ _ ht
  have e3 : slice (h.id ++ (iv ++ tag ++ ct)) 36 94 = ct := by
    rw [slice_append_right _ _ 36 94 8 hid (by omega), List.append_assoc, slice_append_right _ _ _ _ 12 hiv (by omega),
      slice_append_right _ _ _ _ 16 ht (by omega)]
    have := slice_zero_append ct [] 58 hc
    simpa using this
  rw [e1, e2, e3]
  exact hd

/-- The commander given one message. -/
theorem commander_runs (c : Commander) (hash : List Char → U64) (commands : List (List Char × CommandValue)) (name : List Char) (v : CommandValue) (ip : Ip)
    (h : Executes c hash commands name v ip) (hip : normalizeIp ip = ip) (x : Ip) (hx : SameHost x ip) (pre : Path) (env : ChildEnv)
    (hends : Ends c (.stream false (CommanderData.mk (hash name) x).toBytes env)) (w : World) (hw : Works 2 w) :
    ∃ l, (c.serve pre [.stream false (CommanderData.mk (hash name) x).toBytes env] w).2.log = w.log ++ l ∧ spawns l = [(commandText v, ip)] := by
  obtain ⟨l, hl, hs⟩ := C29_connections_independent c pre [.stream false (CommanderData.mk (hash name) x).toBytes env]
    (by intro k hk; simp only [List.mem_singleton] at hk; subst hk; exact hends) w hw.ok hw.clock (by simpa using hw.length)
  refine ⟨l, hl, ?_⟩
  rw [hs]
  have hlen := (C05_ipc_round_trip (CommanderData.mk (hash name) x)).1
  have hx' : normalizeIp x = ip := by rw [(normalizeIp_eq_iff_sameHost x ip).2 hx, hip]
  have hreq : Spec.request (.stream false (CommanderData.mk (hash name) x).toBytes env) = some (hash name, ip) := by
    unfold Spec.request
    simp only
    rw [if_neg (by rw [hlen]; simp)]
    unfold CommanderData.toBytes
    simp only
    rw [List.take_append_of_le_length (by simp), List.take_of_length_le (by simp), U64_ofBE_beBytes, List.drop_append_of_le_length (by simp),
      List.drop_eq_nil_of_le (by simp), List.nil_append, List.take_of_length_le (by simp), deserializeIp_serializeIp, hx']
  have hcmd : commandFor c (.stream false (CommanderData.mk (hash name) x).toBytes env) = some (commandText v, ip) := by
    unfold commandFor
    rw [hreq]
    simp only
    rw [h.table, C26_configured_is_selected hash commands h.names h.collisionFree name v h.configured]
    simp only
    rw [if_pos]
    rcases h.allowed with h | h
    · exact Or.inl h
    · right
      rw [← C27_refused_iff_in_block] at h
      simpa using h
  simp [hcmd]

/-- Behind the client: what happens to a datagram it sent. -/
def ServedOnce (A : Aead) (hash : List Char → U64) (cmd : SendCmd) (h : CryptoHandler) (claimed : Option Ip) (a : SockAddr) (ctr : U128) (dg : List Byte) : Prop :=
      -- the server
      ∀ (s : Server) (listed : List Ip) (src : Ip) (rd : Readings) (rl : RateLimiter) (now t : U128) (cl : List (Option U128)) (ws ws' : World)
        (os : Out (Server × Except Err Unit)), s.bl.Wf → s.bl.map.length < 2 ^ 32 → AllOk ws → ws.clock = some now :: some t :: cl →
        Admits s listed h ctr.toNat a.ip (!cmd.permissive) claimed src now.toNat → RateOk s src rd rl → s.iteration A dg src rd ws = (os, ws') →
      ∃ s' msg, os = .ok (s', .ok ()) ∧ forwards ws'.log = forwards ws.log ++ [(ws.cur, ctr, msg)] ∧
        -- the commander
        (∀ (k : Commander) (commands : List (List Char × CommandValue)) (v : CommandValue) (ip : Ip) (pre : Path) (cenv : ChildEnv) (wk : World),
          SameHost ip (claimed.getD src) → ¬ Spec.IsMappedNotation ip → Executes k hash commands cmd.command v ip → Ends k (.stream false msg cenv) → Works 2 wk →
          ∃ l, (k.serve pre [.stream false msg cenv] wk).2.log = wk.log ++ l ∧ spawns l = [(commandText v, ip)]) ∧
        -- not again
        (∀ (src2 : Ip) (rd2 : Readings) (w2 : World), forwards (s'.iteration A dg src2 rd2 w2).2.log = forwards w2.log)

/-- A claimed address is read as it was given, up to notation. -/
theorem readSrc_claimed {claimed : Option Ip} (hclaim : claimed ≠ some (.v6 0)) : readSrc claimed = claimed.map normalizeIp := by
  cases claimed with
  | none => rfl
  | some ip =>
    have : ip ≠ .v6 0 := fun h => hclaim (by rw [h])
    simp only [readSrc]
    rw [if_neg this]
    rfl

/-- A request the server admits is acceptable. -/
theorem acceptable_of_admits {A : Aead} {hash : List Char → U64} {cmd : SendCmd} {h : CryptoHandler} {claimed : Option Ip} (hclaim : claimed ≠ some (.v6 0)) {a : SockAddr} {ctr : U128} {dg : List Byte}
    (hdl : dg.length = 94) (hdid : dg.take 8 = h.id)
    (hseal : Seals A h.key dg { cmdHash := hash cmd.command, counter := ctr, strict := !cmd.permissive, srcIp := readSrc claimed, dstIp := normalizeIp a.ip })
    {s : Server} {listed : List Ip} {src : Ip} {now : Nat} (hadm : Admits s listed h ctr.toNat a.ip (!cmd.permissive) claimed src now) :
    Acceptable A s now src dg { cmdHash := hash cmd.command, counter := ctr, strict := !cmd.permissive, srcIp := readSrc claimed, dstIp := normalizeIp a.ip } := by
  refine ⟨by omega, ⟨h, by rw [hdid]; exact hadm.key, hseal⟩, by rw [hdid]; exact hadm.counter, hadm.clock, ?_, ?_⟩
  · obtain ⟨ip, hm, hsame⟩ := hadm.dst
    rw [hadm.ips, loadIps, List.mem_map]
    exact ⟨ip, hm, ((normalizeIp_eq_iff_sameHost a.ip ip).2 hsame).symm⟩
  · intro hst ip hip
    rw [readSrc_claimed hclaim] at hip
    cases claimed with
    | none => cases hip
    | some x =>
      injection hip with hip
      rw [← normalizeIp_eq_iff_sameHost, ← hip, (C06_normalize_idempotent x).1]
      exact (normalizeIp_eq_iff_sameHost x src).2 (hadm.src hst x rfl)

theorem servedOnce {A : Aead} (hA : A.Correct) (hash : List Char → U64) (cmd : SendCmd) (h : CryptoHandler) (hid : h.id.length = 8) (hkl : h.key.length = 32) (claimed : Option Ip)
    (hclaim : claimed ≠ some (.v6 0)) (a : SockAddr) (ctr : U128) (dg iv : List Byte) (hiv : iv.length = 12)
    (henc : encode A h (some iv) (ClientData.serialize { cmdHash := hash cmd.command, counter := ctr, strict := !cmd.permissive, srcIp := claimed, dstIp := a.ip }) = .ok dg) :
    ServedOnce A hash cmd h claimed a ctr dg := by
  unfold ServedOnce
  obtain ⟨hdl, hdid, hseal⟩ := packet_seals hA hid hkl hiv henc
  simp only at hseal
  have hread := readSrc_claimed hclaim
  intro s listed src rd rl now t cl ws ws' os hwf hl32 hok hclk hadm hrate hit
  have hacc := acceptable_of_admits hclaim hdl hdid hseal hadm
  obtain ⟨hos, hfw⟩ := (C15_forwards_iff_acceptable A s hwf hl32 dg src rd ws ws' os hok now t cl hclk hit).2 rl _ hrate hacc
  refine ⟨_, _, hos, hfw, ?_, ?_⟩
  · intro k commands v ip pre cenv wk hsame hmap hex hends hw
    unfold message at hends ⊢
    simp only at hends ⊢
    refine commander_runs k hash commands cmd.command v ip hex (normalizeIp_of_not_mapped hmap) _ ?_ pre cenv hends wk hw
    rw [← normalizeIp_eq_iff_sameHost, (normalizeIp_eq_iff_sameHost ip (claimed.getD src)).2 hsame, hread]
    cases claimed with
    | none => exact (C06_normalize_idempotent src).1
    | some x => exact (C06_normalize_idempotent x).1
  · intro src2 rd2 w2
    have hwf' := insert_wf_of_acceptable hwf hacc
    rcases C15_forwards_only_if_acceptable A { s with rl, bl := s.bl.upsert (dg.take 8) ctr } hwf' dg src2 rd2 w2 _ _ rfl with hsame | ⟨_, now2, _, d2, _, _, _, hacc2, _⟩
    · exact hsame
    · exfalso
      obtain ⟨h2, hg2, pt2, e1, _, e2⟩ := hacc2.sealed
      obtain ⟨pt, e1', _, e2'⟩ := hseal
      simp only at hg2
      rw [hdid, hadm.key] at hg2
      cases hg2
      rw [e1] at e1'
      cases e1'
      rw [e2] at e2'
      cases e2'
      obtain ⟨v, hv, hlt⟩ := hacc2.fresh
      simp only [Blocklist.upsert] at hv
      rw [BlMap.get_insert, if_pos rfl] at hv
      injection hv with hv
      rw [← hv] at hlt
      exact Nat.lt_irrefl _ hlt

/-- **C37.** A client that can send (`CanSend`: readable key, parsable options, resolvable host, working disk and network), sends one datagram to each
destination; and for each of them, if a server admits it (`Admits`, `RateOk`) and its disk works, the server hands exactly one message to the
commander, on which a commander that has the command (`Executes`) starts exactly that command's text, once, for the address the client claimed or
else its real one; and that server never acts on the datagram again. `ip` is the canonical notation of the address. -/
theorem C37_end_to_end (A : Aead) (hA : A.Correct) (hash : List Char → U64)
    -- the client
    (dir : Path) (cmd : SendCmd) (env : SendEnv) (wc wc' : World) (oc : Out Unit) (h : CryptoHandler) (claimed : Option Ip) (dsts : List SockAddr) (c : U128)
    (hcan : CanSend dir cmd env wc h claimed dsts c) (hclaim : claimed ≠ some (.v6 0)) (hsend : runSend A hash dir false cmd env wc = (oc, wc')) :
    oc = .ok () ∧ ∃ sent, datagrams wc'.log = datagrams wc.log ++ sent ∧ sent.length = dsts.length ∧
    ∀ (j : Nat) (a : SockAddr), dsts[j]? = some a → ∃ ctr dg, sent[j]? = some (a.ip, a.port, ctr, dg) ∧ ctr.toNat = c.toNat + 1 + j ∧
      -- the server
      ∀ (s : Server) (listed : List Ip) (src : Ip) (rd : Readings) (rl : RateLimiter) (now t : U128) (cl : List (Option U128)) (ws ws' : World)
        (os : Out (Server × Except Err Unit)), s.bl.Wf → s.bl.map.length < 2 ^ 32 → AllOk ws → ws.clock = some now :: some t :: cl →
        Admits s listed h ctr.toNat a.ip (!cmd.permissive) claimed src now.toNat → RateOk s src rd rl → s.iteration A dg src rd ws = (os, ws') →
      ∃ s' msg, os = .ok (s', .ok ()) ∧ forwards ws'.log = forwards ws.log ++ [(ws.cur, ctr, msg)] ∧
        -- the commander
        (∀ (k : Commander) (commands : List (List Char × CommandValue)) (v : CommandValue) (ip : Ip) (pre : Path) (cenv : ChildEnv) (wk : World),
          SameHost ip (claimed.getD src) → ¬ Spec.IsMappedNotation ip → Executes k hash commands cmd.command v ip → Ends k (.stream false msg cenv) → Works 2 wk →
          ∃ l, (k.serve pre [.stream false msg cenv] wk).2.log = wk.log ++ l ∧ spawns l = [(commandText v, ip)]) ∧
        -- not again
        (∀ (src2 : Ip) (rd2 : Readings) (w2 : World), forwards (s'.iteration A dg src2 rd2 w2).2.log = forwards w2.log) := by
  have hs := runSend_ok hA hash dir cmd env wc h claimed dsts c hcan
  unfold wp at hs
  rw [hsend] at hs
  obtain ⟨ho, _, sent, hd, hlen, hall⟩ := hs
  refine ⟨ho, sent, hd, hlen, ?_⟩
  intro j a hj
  obtain ⟨ctr, iv, dg, h1, _, hiv, henc, hsent⟩ := hall j a hj
  obtain ⟨text, hkt, hk⟩ := hcan.key
  obtain ⟨_, hid, hkl⟩ := (create_ok_iff _ _).1 hk
  exact ⟨ctr, dg, hsent, h1, servedOnce hA hash cmd h hid hkl claimed hclaim a ctr dg iv hiv henc⟩

/-! ## Concrete case -/

/-- `ruroco-client send --command open --ip 8.8.8.8 --permissive`, host with both kinds of addresses. -/
def exOpen : SendCmd := { exCmd with ip := some "8.8.8.8".toList }

theorem exOpen_canSend : CanSend "/c".toList exOpen (exClientEnv exClientKey) (exDisk (some (beBytes 16 5000)) []) exSenderKey (some (.v4 0x08080808))
    [⟨.v4 0x0a000002, 80⟩, ⟨.v6 1, 80⟩] 5000 where
  works := ⟨(fun c hc => nomatch (show c ∈ ([] : List Choice) from hc)),
    (fun t ht => by
      rw [List.eq_of_mem_replicate (show t ∈ List.replicate 9 (some (1763290000000000000 : U128)) from ht)]
      exact nofun), Nat.le_of_ble_eq_true rfl⟩
  address := ⟨"host:80".toList, by decide +kernel, by decide +kernel⟩
  ip := by decide +kernel
  key := ⟨exClientKey, rfl, by decide +kernel⟩
  random := fun i => ⟨_, rfl, by simp⟩
  counter := Or.inl (by decide +kernel)
  room := by decide +kernel

theorem exServer_admits : Admits exServer [.v6 0xffff0a000002] exSenderKey 5001 (.v4 0x0a000002) false (some (.v4 0x08080808)) (.v4 0x0a000001) 1000 where
  key := by decide +kernel
  ips := rfl
  dst := ⟨_, List.mem_singleton.2 rfl, by unfold SameHost Spec.IsMappedOf; decide +kernel⟩
  counter := ⟨4000, by decide +kernel, by decide +kernel⟩
  clock := by decide +kernel
  src := nofun

theorem exCommander_executes : Executes exCommander exHash [("open".toList, .plain "ufw allow".toList), ("close!".toList, .detailed "ufw deny".toList (some 5))]
    "open".toList (.plain "ufw allow".toList) (.v4 0x08080808) where
  table := rfl
  configured := by decide +kernel
  names := by decide +kernel
  collisionFree := by decide +kernel
  allowed := Or.inr (by rw [← C27_refused_iff_in_block]; decide +kernel)

/-- The datagrams of that send. -/
def exSent : List (Ip × Nat × U128 × List Byte) :=
  datagrams (runSend toyAead exHash "/c".toList false exOpen (exClientEnv exClientKey) (exDisk (some (beBytes 16 5000)) [])).2.log

/-- What the server makes of the first of them. -/
def exMsgs : List (List Byte × U128 × List Byte) :=
  match exSent with
  | x :: _ => forwards (exServer.iteration toyAead x.2.2.2 (.v4 0x0a000001) exReadings (exWorld [])).2.log
  | [] => []

/-- The same by evaluation, from the client's disk to the shell. -/
example : exSent.map (fun x => (x.1, x.2.1, x.2.2.1)) = [(.v4 0x0a000002, 80, 5001), (.v6 1, 80, 5002)] ∧ exMsgs.map (fun x => x.2.1) = [5001] ∧
    exMsgs.map (fun m => spawns (exCommander.serve [] [.stream false m.2.2 exEnv] (exCmdrWorld [])).2.log) = [[("ufw allow".toList, .v4 0x08080808)]] := by
  decide +kernel

end Ruroco
