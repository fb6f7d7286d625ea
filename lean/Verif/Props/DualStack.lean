import Verif.Props.AtMostOnce
import Verif.Spec.Terms.DualStack

/-! # C53: what the two datagrams of one send do -/

namespace Ruroco

open Spec (datagrams requestFor Seals Acceptable RateOk forwards message SameHost NonRoutable spawns commandFor commandText timeLimit counterOnDisk)

/-- An acceptable request that is delivered is handed over. -/
theorem Arrives.handed {A : Aead} {s : Server} {dg : List Byte} {src : Ip} {now : U128} {w w' : World} {s' : Server} (hd : Arrives A s dg src now w s' w') (hwf : s.bl.Wf)
    (hlen : s.bl.map.length < 2 ^ 32) {d : ClientData} (ha : Acceptable A s now.toNat src dg d) :
    (∃ rl, s' = { s with rl, bl := s.bl.upsert (dg.take 8) d.counter }) ∧ forwards w'.log = forwards w.log ++ [(w.cur, d.counter, message d (normalizeIp src))] := by
  obtain ⟨t, c, hc⟩ := hd.clock
  obtain ⟨rd, rl, e, hr, hit⟩ := hd.taken
  obtain ⟨ho, hf⟩ := (C15_forwards_iff_acceptable A s hwf hlen dg src rd w w' _ hd.works now t c hc hit).2 rl d hr ha
  injection ho with ho
  exact ⟨⟨rl, (Prod.mk.inj ho).1⟩, hf⟩

/-- The message that stands for a request makes the commander start the command, for the address claimed or else the real one. -/
theorem message_command {k : Commander} {hash : List Char → U64} {commands : List (List Char × CommandValue)} {name : List Char} {v : CommandValue} {ip : Ip} (h : Executes k hash commands name v ip)
    (hmap : ¬ Spec.IsMappedNotation ip) {claimed : Option Ip} (hclaim : claimed ≠ some (.v6 0)) {src : Ip} (hsame : SameHost ip (claimed.getD src)) (ctr : U128) (strict : Bool) (dst : Ip) (env : ChildEnv) :
    commandFor k (.stream false (message { cmdHash := hash name, counter := ctr, strict, srcIp := readSrc claimed, dstIp := dst } (normalizeIp src)) env) = some (commandText v, ip) := by
  unfold message
  simp only
  generalize hx : (readSrc claimed).getD (normalizeIp src) = x
  have hip := normalizeIp_of_not_mapped hmap
  have hx' : normalizeIp x = ip := by
    rw [← hx, readSrc_claimed hclaim, ← hip, (normalizeIp_eq_iff_sameHost ip (claimed.getD src)).2 hsame]
    cases claimed with
    | none => exact (C06_normalize_idempotent src).1
    | some y => exact (C06_normalize_idempotent y).1
  have hlen := (C05_ipc_round_trip (CommanderData.mk (hash name) x)).1
  have hreq : Spec.request (.stream false (CommanderData.mk (hash name) x).toBytes env) = some (hash name, ip) := by
    unfold Spec.request
    simp only
    rw [if_neg (by rw [hlen]; simp)]
    unfold CommanderData.toBytes
    simp only
    rw [List.take_append_of_le_length (by simp), List.take_of_length_le (by simp), U64_ofBE_beBytes, List.drop_append_of_le_length (by simp),
      List.drop_eq_nil_of_le (by simp), List.nil_append, List.take_of_length_le (by simp), deserializeIp_serializeIp, hx']
  unfold commandFor
  rw [hreq]
  simp only
  rw [h.table, C26_configured_is_selected hash commands h.names h.collisionFree name v h.configured]
  simp only
  rw [if_pos]
  rcases h.allowed with h | h
  · exact Or.inl h
  · right
    rw [← C27_refused_iff_in_block] at h
    simpa using h

/-- **C53, what happens instead.** A send to a host with two addresses makes two datagrams. If the server admits both, the order in which they arrive decides how often the command is started:
twice if they arrive in the order in which they were sent, once if the second overtakes the first, which is then refused as old. -/
theorem C53_order_decides (A : Aead) (hA : A.Correct) (hash : List Char → U64)
    -- the client
    (dir : Path) (cmd : SendCmd) (env : SendEnv) (wc wc' : World) (oc : Out Unit) (h : CryptoHandler) (claimed : Option Ip) (a b : SockAddr) (c : U128)
    (hcan : CanSend dir cmd env wc h claimed [a, b] c) (hclaim : claimed ≠ some (.v6 0)) (hsend : runSend A hash dir false cmd env wc = (oc, wc')) :
    ∃ ca cb da db, datagrams wc'.log = datagrams wc.log ++ [(a.ip, a.port, ca, da), (b.ip, b.port, cb, db)] ∧
    -- the server: either of them alone would be admitted
    ∀ (s : Server) (listed : List Ip) (srca srcb : Ip) (nowa nowb : U128), s.bl.Wf → s.bl.map.length < 2 ^ 32 →
      Admits s listed h ca.toNat a.ip (!cmd.permissive) claimed srca nowa.toNat → Admits s listed h cb.toNat b.ip (!cmd.permissive) claimed srcb nowb.toNat →
      (∀ s1 s2 w0 w1 w2 w3, Arrives A s da srca nowa w0 s1 w1 → Arrives A s1 db srcb nowb w2 s2 w3 →
        ∃ ma mb, forwards w1.log = forwards w0.log ++ [(w0.cur, ca, ma)] ∧ forwards w3.log = forwards w2.log ++ [(w2.cur, cb, mb)] ∧
          -- the commander
          ∀ (k : Commander) (commands : List (List Char × CommandValue)) (v : CommandValue) (ipa ipb : Ip) (pre : Path) (ea eb : ChildEnv) (wk : World),
            SameHost ipa (claimed.getD srca) → ¬ Spec.IsMappedNotation ipa → Executes k hash commands cmd.command v ipa →
            SameHost ipb (claimed.getD srcb) → ¬ Spec.IsMappedNotation ipb → Executes k hash commands cmd.command v ipb →
            Ends k (.stream false ma ea) → Ends k (.stream false mb eb) → Works 4 wk →
            ∃ l, (k.serve pre [.stream false ma ea, .stream false mb eb] wk).2.log = wk.log ++ l ∧ spawns l = [(commandText v, ipa), (commandText v, ipb)]) ∧
      (∀ s1 s2 w0 w1 w2 w3, Arrives A s db srcb nowb w0 s1 w1 → Arrives A s1 da srca nowa w2 s2 w3 →
        (∃ mb, forwards w1.log = forwards w0.log ++ [(w0.cur, cb, mb)]) ∧ forwards w3.log = forwards w2.log) := by
  have hs := runSend_ok hA hash dir cmd env wc h claimed [a, b] c hcan
  unfold wp at hs
  rw [hsend] at hs
  obtain ⟨_, _, sent, hd, hlen, hall⟩ := hs
  obtain ⟨ca, iva, da, hca, _, hiva, henca, hsenta⟩ := hall 0 a rfl
  obtain ⟨cb, ivb, db, hcb, _, hivb, hencb, hsentb⟩ := hall 1 b rfl
  obtain ⟨text, hkt, hk⟩ := hcan.key
  obtain ⟨_, hid, hkl⟩ := (create_ok_iff _ _).1 hk
  obtain ⟨hdla, hdida, hseala⟩ := packet_seals hA hid hkl hiva henca
  obtain ⟨hdlb, hdidb, hsealb⟩ := packet_seals hA hid hkl hivb hencb
  simp only at hseala hsealb
  refine ⟨ca, cb, da, db, ?_, ?_⟩
  · rw [hd]
    match sent, hlen, hsenta, hsentb with
    | [x, y], _, hx, hy =>
      simp only [List.getElem?_cons_zero, List.getElem?_cons_succ, Option.some.injEq] at hx hy
      rw [hx, hy]
  · intro s listed srca srcb nowa nowb hwf hl32 hadma hadmb
    have hacca := acceptable_of_admits hclaim hdla hdida hseala hadma
    have haccb := acceptable_of_admits hclaim hdlb hdidb hsealb hadmb
    refine ⟨?_, ?_⟩
    · intro s1 s2 w0 w1 w2 w3 hd1 hd2
      obtain ⟨⟨rl, rfl⟩, hf1⟩ := hd1.handed hwf hl32 hacca
      have hwf1 := insert_wf_of_acceptable hwf hacca
      have haccb1 : Acceptable A { s with rl, bl := s.bl.upsert (da.take 8) ca } nowb.toNat srcb db
          { cmdHash := hash cmd.command, counter := cb, strict := !cmd.permissive, srcIp := readSrc claimed, dstIp := normalizeIp b.ip } := by
        refine ⟨haccb.size, haccb.sealed, ⟨ca, ?_, ?_⟩, haccb.notFuture, haccb.dst, haccb.src⟩
        · simp only [Blocklist.upsert]
          rw [hdida, hdidb, BlMap.get_insert, if_pos rfl]
        · show ca.toNat < cb.toNat
          omega
      have hl1 : ({ s with rl, bl := s.bl.upsert (da.take 8) ca } : Server).bl.map.length < 2 ^ 32 := by
        obtain ⟨v, hv, _⟩ := hacca.fresh
        show (s.bl.map.insert (da.take 8) ca).length < 2 ^ 32
        rw [BlMap.length_insert hv]; exact hl32
      obtain ⟨_, hf2⟩ := hd2.handed hwf1 hl1 haccb1
      refine ⟨_, _, hf1, hf2, ?_⟩
      intro k commands v ipa ipb pre ea eb wk hsa hma hxa hsb hmb hxb hea heb hw
      obtain ⟨l, hl, hsp⟩ := C29_connections_independent k pre [.stream false _ ea, .stream false _ eb]
        (by
          intro x hx
          simp only [List.mem_cons, List.not_mem_nil, or_false] at hx
          rcases hx with rfl | rfl
          · exact hea
          · exact heb) wk hw.ok hw.clock (by simpa using hw.length)
      refine ⟨l, hl, ?_⟩
      rw [hsp]
      simp only [List.filterMap_cons, List.filterMap_nil]
      rw [message_command hxa hma hclaim hsa, message_command hxb hmb hclaim hsb]
    · intro s1 s2 w0 w1 w2 w3 hd1 hd2
      obtain ⟨⟨rl, rfl⟩, hf1⟩ := hd1.handed hwf hl32 haccb
      refine ⟨⟨_, hf1⟩, ?_⟩
      have hwf1 := insert_wf_of_acceptable hwf haccb
      obtain ⟨t, cl, hc⟩ := hd2.clock
      obtain ⟨rd2, rl2, e2, _, hit⟩ := hd2.taken
      rcases C15_forwards_only_if_acceptable A _ hwf1 da srca rd2 w2 _ _ hit with hsame | ⟨_, now2, _, d2, _, _, _, hacc2, _⟩
      · exact hsame
      · exfalso
        obtain ⟨h2, hg2, pt2, e1, _, e2⟩ := hacc2.sealed
        obtain ⟨pt, e1', _, e2'⟩ := hseala
        simp only at hg2
        rw [hdida, hadma.key] at hg2
        cases hg2
        rw [e1] at e1'
        cases e1'
        rw [e2] at e2'
        cases e2'
        obtain ⟨v, hv, hlt⟩ := hacc2.fresh
        simp only [Blocklist.upsert] at hv
        rw [hdida, hdidb, BlMap.get_insert, if_pos rfl] at hv
        injection hv with hv
        rw [← hv] at hlt
        simp only at hlt
        omega

/-! ## Concrete case: `exOpen_canSend`, and a server at both addresses of the host -/

def exBoth : Server := { exServer with cfg := { exServer.cfg with ips := loadIps [.v4 0x0a000002, .v6 1] } }

example : Admits exBoth [.v4 0x0a000002, .v6 1] exSenderKey 5001 (.v4 0x0a000002) false (some (.v4 0x08080808)) (.v4 0x0a000001) 1000 ∧
    Admits exBoth [.v4 0x0a000002, .v6 1] exSenderKey 5002 (.v6 1) false (some (.v4 0x08080808)) (.v6 2) 1000 := by
  refine ⟨⟨by decide +kernel, rfl, ⟨_, List.mem_cons_self, ?_⟩, ⟨4000, by decide +kernel, by decide +kernel⟩, by decide +kernel, nofun⟩,
    ⟨by decide +kernel, rfl, ⟨_, List.mem_cons_of_mem _ List.mem_cons_self, ?_⟩, ⟨4000, by decide +kernel, by decide +kernel⟩, by decide +kernel, nofun⟩⟩
  · unfold SameHost Spec.IsMappedOf; decide +kernel
  · unfold SameHost Spec.IsMappedOf; decide +kernel

/-- The counters handed over when the datagrams with these numbers arrive, by evaluation. -/
def exArrive (s : Server) : List (List Byte) → List U128
  | [] => []
  | dg :: rest =>
    match s.iteration toyAead dg (.v4 0x0a000001) exReadings (exWorld []) with
    | (.ok (s', _), w') => (forwards w'.log).map (fun x => x.2.1) ++ exArrive s' rest
    | _ => []

example : exArrive exBoth (exSent.map (fun x => x.2.2.2)) = [5001, 5002] ∧ exArrive exBoth (exSent.map (fun x => x.2.2.2)).reverse = [5002] := by decide +kernel

end Ruroco
