import Verif.Props.Reseed
import Verif.Props.EndToEnd
import Verif.Spec.Terms.ReseedExact

/-! # C40, exactly: when reseeding gets a client in again -/

namespace Ruroco

open Spec (datagrams counterOnDisk forwards Acceptable SameHost RateOk)

/-- A datagram of a client, at a server that would let it in if it were new, is acted on if and only if its counter is above the stored one. -/
theorem acted_iff_above {A : Aead} (hA : A.Correct) (hash : List Char → U64) (cmd : SendCmd) {h : CryptoHandler} (hid : h.id.length = 8) (hkl : h.key.length = 32) {claimed : Option Ip}
    (hclaim : claimed ≠ some (.v6 0)) {a : SockAddr} {ctr : U128} {dg iv : List Byte} (hiv : iv.length = 12)
    (henc : encode A h (some iv) (ClientData.serialize { cmdHash := hash cmd.command, counter := ctr, strict := !cmd.permissive, srcIp := claimed, dstIp := a.ip }) = .ok dg)
    {s : Server} {listed : List Ip} {src : Ip} {rd : Readings} {rl : RateLimiter} {now t v : U128} {cl : List (Option U128)} {ws ws' : World} {os : Out (Server × Except Err Unit)}
    (hwf : s.bl.Wf) (hl32 : s.bl.map.length < 2 ^ 32) (hok : AllOk ws) (hclk : ws.clock = some now :: some t :: cl)
    (hadm : AdmitsIfNew s listed h ctr.toNat a.ip (!cmd.permissive) claimed src now.toNat) (hv : s.bl.map.get h.id = some v) (hrate : RateOk s src rd rl)
    (hit : s.iteration A dg src rd ws = (os, ws')) :
    forwards ws'.log ≠ forwards ws.log ↔ v.toNat < ctr.toNat := by
  constructor
  · intro hf
    obtain ⟨_, d, hacc⟩ := (C15_forwards_iff_acceptable A s hwf hl32 dg src rd ws ws' os hok now t cl hclk hit).1.1 hf
    obtain ⟨_, hdid, hseal⟩ := packet_seals hA hid hkl hiv henc
    obtain ⟨h2, hg2, pt2, e1, _, e2⟩ := hacc.sealed
    obtain ⟨pt, e1', _, e2'⟩ := hseal
    rw [hdid, hadm.key] at hg2
    cases hg2
    rw [e1] at e1'
    cases e1'
    rw [e2] at e2'
    cases e2'
    obtain ⟨v', hv', hlt⟩ := hacc.fresh
    rw [hdid, hv] at hv'
    cases hv'
    exact hlt
  · intro hlt
    obtain ⟨s', msg, _, hf, _⟩ := servedOnce hA hash cmd h hid hkl claimed hclaim a ctr dg iv hiv henc s listed src rd rl now t cl ws ws' os hwf hl32 hok hclk
      ⟨hadm.key, hadm.ips, hadm.dst, ⟨v, hv, hlt⟩, hadm.clock, hadm.src⟩ hrate hit
    rw [hf]
    intro hc
    have := congrArg List.length hc
    simp at this

/-- **C40, exactly.** After a reseed that reported success, at time `t` by the client's clock, the next send's `j`-th datagram (counting from 0) carries the counter `t + 1 + j`; and a server that
would let it in if it were new acts on it if and only if the counter it has stored for the key is at most `t + j`. So reseeding gets the client in again exactly if its clock is not behind the
largest counter accepted so far. -/
theorem C40_recovers_iff (A : Aead) (hA : A.Correct) (hash : List Char → U64) (cdir : Path) (held : Bool) (cw cw1 : World) (hre : runReseed cdir held cw = (.ok (), cw1)) :
    ∃ t, some t ∈ cw.clock ∧ counterOnDisk cw1 (counterPath cdir) = some t.toNat ∧
    ∀ (env : Env) (cmd : SendCmd) (senv : SendEnv) (h : CryptoHandler) (claimed : Option Ip) (dsts : List SockAddr) (oc : Out Unit) (cw2 : World),
      CanSend cdir cmd senv (cw1.withEnv env []) h claimed dsts t → claimed ≠ some (.v6 0) → runSend A hash cdir false cmd senv (cw1.withEnv env []) = (oc, cw2) →
      ∃ sent, datagrams cw2.log = datagrams cw1.log ++ sent ∧ sent.length = dsts.length ∧
      ∀ (j : Nat) (a : SockAddr), dsts[j]? = some a → ∃ ctr dg, sent[j]? = some (a.ip, a.port, ctr, dg) ∧ ctr.toNat = t.toNat + 1 + j ∧
        ∀ (s : Server) (listed : List Ip) (src : Ip) (rd : Readings) (rl : RateLimiter) (now t' v : U128) (cl : List (Option U128)) (ws ws' : World) (os : Out (Server × Except Err Unit)),
          s.bl.Wf → s.bl.map.length < 2 ^ 32 → AllOk ws → ws.clock = some now :: some t' :: cl →
          AdmitsIfNew s listed h ctr.toNat a.ip (!cmd.permissive) claimed src now.toNat → s.bl.map.get h.id = some v → RateOk s src rd rl → s.iteration A dg src rd ws = (os, ws') →
          (forwards ws'.log ≠ forwards ws.log ↔ v.toNat ≤ t.toNat + j) := by
  have hsp := runReseed_spec cdir held cw
  unfold wp at hsp
  rw [hre] at hsp
  obtain ⟨t, f, ht, hf, hd, _⟩ := hsp.2 rfl
  refine ⟨t, ht, ?_, ?_⟩
  · rw [counterOnDisk, hf]
    have : ofBE (beBytes 16 t.toNat) = t.toNat := by rw [ofBE_beBytes]; exact Nat.mod_eq_of_lt t.isLt
    simp [hd, List.take_of_length_le, this]
  intro env cmd senv h claimed dsts oc cw2 hcan hclaim hsend
  have hs := runSend_ok hA hash cdir cmd senv _ h claimed dsts t hcan
  unfold wp at hs
  rw [hsend] at hs
  obtain ⟨_, _, l, h1, h2, h3⟩ := hs
  refine ⟨l, h1, h2, fun j a hj => ?_⟩
  obtain ⟨ctr, iv, dg, e1, _, e3, e4, e5⟩ := h3 j a hj
  refine ⟨ctr, dg, e5, e1, ?_⟩
  intro s listed src rd rl now t' v cl ws ws' os hwf hl hok hclk hadm hv hrate hit
  obtain ⟨text, _, hk⟩ := hcan.key
  obtain ⟨_, hidl, hkl⟩ := (create_ok_iff _ _).1 hk
  rw [acted_iff_above hA hash cmd hidl hkl hclaim e3 e4 hwf hl hok hclk hadm hv hrate hit, e1]
  omega

/-! ## Concrete case: reseeding at 2000, while the server has stored 4000 -/

theorem exLate_canSend : CanSend "/c".toList exOpen (exClientEnv exClientKey) (exLate1.withEnv ⟨[], List.replicate 9 (some 2050)⟩ []) exSenderKey (some (.v4 0x08080808))
    [⟨.v4 0x0a000002, 80⟩, ⟨.v6 1, 80⟩] 2000 where
  works := ⟨(fun c hc => nomatch (show c ∈ ([] : List Choice) from hc)),
    (fun t ht => by
      rw [List.eq_of_mem_replicate (show t ∈ List.replicate 9 (some (2050 : U128)) from ht)]
      exact nofun), Nat.le_of_ble_eq_true rfl⟩
  address := ⟨"host:80".toList, by decide +kernel, by decide +kernel⟩
  ip := by decide +kernel
  key := ⟨exClientKey, rfl, by decide +kernel⟩
  random := fun i => ⟨_, rfl, by simp⟩
  counter := Or.inl (by decide +kernel)
  room := by decide +kernel

theorem exServer_admitsIfNew : AdmitsIfNew exServer [.v6 0xffff0a000002] exSenderKey (2001 : U128).toNat (SockAddr.mk (.v4 0x0a000002) 80).ip (!exOpen.permissive) (some (.v4 0x08080808)) (.v4 0x0a000001)
    (1000 : U128).toNat where
  key := by decide +kernel
  ips := rfl
  dst := ⟨_, List.mem_singleton.2 rfl, by unfold SameHost Spec.IsMappedOf; decide +kernel⟩
  clock := by decide +kernel
  src := nofun

theorem exLate_reseeded : (runReseed "/c".toList false exLate).1 = .ok () := by decide +kernel
theorem exLate1_counter : counterOnDisk exLate1 (counterPath "/c".toList) = some 2000 := by decide +kernel
theorem exServer_stored : exServer.bl.map.get exSenderKey.id = some 4000 := by decide +kernel
theorem exServer_rate : (exServer.rl.check (normalizeIp (.v4 0x0a000001)) exServer.cfg.maxPerIp exServer.cfg.maxGlobal exReadings).1.isOk = true := by decide +kernel

/-- The hypotheses are met: the client is still shut out, as 4000 > 2000. -/
example : ∃ dg, (.v4 0x0a000002, 80, 2001, dg) ∈ datagrams exLate2.log ∧
    forwards (exServer.iteration toyAead dg (.v4 0x0a000001) exReadings (exWorld [])).2.log = forwards (exWorld []).log := by
  have hre : runReseed "/c".toList false exLate = (.ok (), exLate1) := by
    unfold exLate1
    exact run_ok_eq exLate_reseeded
  have hsend : ∃ oc, runSend toyAead exHash "/c".toList false exOpen (exClientEnv exClientKey) (exLate1.withEnv ⟨[], List.replicate 9 (some 2050)⟩ []) = (oc, exLate2) := by
    unfold exLate2
    generalize runSend toyAead exHash "/c".toList false exOpen (exClientEnv exClientKey) (exLate1.withEnv ⟨[], List.replicate 9 (some 2050)⟩ []) = x
    exact ⟨x.1, rfl⟩
  obtain ⟨oc, hsend⟩ := hsend
  obtain ⟨t, _, h1, h2⟩ := C40_recovers_iff toyAead toyAead_correct exHash "/c".toList false exLate exLate1 hre
  have ht : t = 2000 := BitVec.eq_of_toNat_eq (Option.some.inj (h1.symm.trans exLate1_counter))
  subst ht
  obtain ⟨sent, e1, e2, e3⟩ := h2 ⟨[], List.replicate 9 (some 2050)⟩ exOpen (exClientEnv exClientKey) exSenderKey (some (.v4 0x08080808)) _ oc exLate2 exLate_canSend
    (by simp) hsend
  obtain ⟨ctr, dg, g1, g2, g3⟩ := e3 0 ⟨.v4 0x0a000002, 80⟩ rfl
  have hc : ctr = 2001 := BitVec.eq_of_toNat_eq (by rw [g2]; decide)
  subst hc
  refine ⟨dg, ?_, ?_⟩
  · rw [e1]
    exact List.mem_append_right _ (List.mem_of_getElem? g1)
  · have hr : ∃ rl, RateOk exServer (.v4 0x0a000001) exReadings rl := by
      have := exServer_rate
      unfold RateOk
      generalize exServer.rl.check _ _ _ _ = x at this
      obtain ⟨a, rl⟩ := x
      cases a with
      | ok u => exact ⟨rl, rfl⟩
      | error e => cases this
    obtain ⟨rl, hr⟩ := hr
    have hit : ∃ os ws', exServer.iteration toyAead dg (.v4 0x0a000001) exReadings (exWorld []) = (os, ws') := by
      generalize exServer.iteration toyAead dg (.v4 0x0a000001) exReadings (exWorld []) = x
      exact ⟨x.1, x.2, rfl⟩
    obtain ⟨os, ws', hit⟩ := hit
    have := g3 exServer [.v6 0xffff0a000002] (.v4 0x0a000001) exReadings rl 1000 2000 4000 [] (exWorld []) ws' os exServer_wf (by decide +kernel) (fun c hc => nomatch (show c ∈ ([] : List Choice) from hc)) rfl
      exServer_admitsIfNew exServer_stored hr hit
    rw [hit]
    exact Classical.byContradiction (fun hne => absurd (this.1 hne) (by decide))

end Ruroco
