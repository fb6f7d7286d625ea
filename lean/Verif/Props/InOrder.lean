import Verif.Spec.InOrder
import Verif.Props.Joint
import Verif.Props.Stamp
import Verif.Props.Nonce
import Verif.Props.SendContent
import Verif.Props.Installation
import Verif.Lemmas.Bounds

/-! # C112: what is executed is what was asked for, in the order in which it was asked for -/

namespace Ruroco

open Spec

theorem asked_append (a b : List JEv) : asked (a ++ b) = asked a ++ asked b := by
  induction a with
  | nil => rfl
  | cons e a ih =>
    cases e with
    | server e => exact ih
    | client e =>
      cases e with
      | send env held cmd senv => exact congrArg (cmd :: ·) ih
      | reseed env held => exact ih
      | power => exact ih
      | others => exact ih

/-- Among strictly increasing lists, containment is a sublist. -/
theorem sublist_of_increasing {α : Type} (f : α → Nat) (l m : List α) (hl : l.Pairwise (fun a b => f a < f b)) (hm : m.Pairwise (fun a b => f a < f b)) (h : ∀ x ∈ l, x ∈ m) : l.Sublist m := by
  induction m generalizing l with
  | nil =>
    cases l with
    | nil => exact .slnil
    | cons x l => exact absurd (h x (by simp)) (by simp)
  | cons y m ih =>
    rw [List.pairwise_cons] at hm
    cases l with
    | nil => exact List.nil_sublist _
    | cons x l =>
      rw [List.pairwise_cons] at hl
      rcases List.mem_cons.1 (h x (by simp)) with rfl | hx
      · refine (ih l hl.2 hm.2 ?_).cons_cons _
        intro z hz
        rcases List.mem_cons.1 (h z (List.mem_cons_of_mem _ hz)) with rfl | hz'
        · exact absurd (hl.1 _ hz) (Nat.lt_irrefl _)
        · exact hz'
      · refine (ih (x :: l) (List.pairwise_cons.2 hl) hm.2 ?_).cons _
        intro z hz
        rcases List.mem_cons.1 (h z hz) with rfl | hz'
        · have h1 := hm.1 x hx
          rcases List.mem_cons.1 hz with rfl | hz2
          · exact absurd h1 (Nat.lt_irrefl _)
          · have := hl.1 _ hz2
            omega
        · exact hz'

/-- What opens under the shared key was sent with the counter it carries. -/
theorem datagram_sent {A : Aead} (hA : A.Correct) {pw : Bool} {P : Path} {b : Bond} {W : List U128} {cw : World} (hc : CKey A pw P b W cw) {dg : List Byte}
    (hk : dg.take 8 = b.k) (hs : OnlySentBy A b cw dg) {d : ClientData} (hd : Seals A b.key dg d) : ∃ ip port, .udp ip port d.counter (dg.take 94) ∈ cw.log := by
  obtain ⟨ip, port, c, hm⟩ := hs hk ⟨d, hd⟩
  obtain ⟨h, iv, d', h1, h2, h3, h4, h5, h6⟩ := hc.made ip port c _ hm
  obtain ⟨e1, e2, e3⟩ := packet_seals hA h1 h2 h3 h5
  have hid : h.id = b.k := by
    rw [← e2, List.take_take]
    exact hk
  rw [h6 hid] at e3
  have hd' := (seals_take A b.key dg d).2 hd
  obtain ⟨p, f1, f2, f3⟩ := e3
  obtain ⟨q, g1, g2, g3⟩ := hd'
  rw [f1] at g1
  cases g1
  rw [f3] at g3
  cases g3
  refine ⟨ip, port, ?_⟩
  show Event.udp ip port d'.counter _ ∈ _
  rw [h4]
  exact hm

/-- Where a command handed over for the key comes from. -/
def FromClient (A : Aead) (b : Bond) (cw : World) (x : List Byte × U128 × List Byte) : Prop :=
  ∃ ip port d src n, .udp ip port x.2.1 x.1 ∈ cw.log ∧ Seals A b.key x.1 d ∧ d.counter = x.2.1 ∧ x.2.2 = (message d (normalizeIp src)).take n

theorem FromClient.grow {A : Aead} {b : Bond} {cw cw' : World} {x : List Byte × U128 × List Byte} (h : FromClient A b cw x) (hl : ∃ l, cw'.log = cw.log ++ l) : FromClient A b cw' x := by
  obtain ⟨ip, port, d, src, n, h1, h2⟩ := h
  obtain ⟨l, hl⟩ := hl
  exact ⟨ip, port, d, src, n, by rw [hl]; exact List.mem_append_left _ h1, h2⟩

/-- Every command handed over for the key was sent by the client, with the counter recorded. -/
theorem forwards_from_client {A : Aead} (hA : A.Correct) {hash : List Char → U64} {b : Bond} {cdir sdir : Path} {j j' : Joint} {evs : List JEv} {pwc pws : Bool}
    (h : JRun A hash b cdir sdir j evs j') (h0 : j.sys.srv = none) (hi : JInv A pwc pws b cdir sdir j) (hpc : .client .power ∈ evs → pwc = true)
    (hps : .server .power ∈ evs → pws = true) (hsync : SyncOk pws sdir j'.sys.w.log) (hstat : .statFailed (blocklistPath sdir) ∉ j'.sys.w.log) (hf0 : forwards j.sys.w.log = []) :
    ∀ x ∈ forwards j'.sys.w.log, x.1.take 8 = b.k → FromClient A b j'.cw x := by
  induction h with
  | nil => rw [hf0]; exact nofun
  | snoc hr hst ih =>
    have hpc' := fun hm => hpc (List.mem_append_left _ hm)
    have hps' := fun hm => hps (List.mem_append_left _ hm)
    cases hst with
    | client e cw' ha hs =>
      intro x hx hk
      exact (ih hpc' hps' hsync hstat x hx hk).grow (cstep_grows hA hs)
    | server e sys' ha hs =>
      obtain ⟨sevs, hrun⟩ := hr.server
      have hwf := live_run_false hrun (fun srv h => by rw [h0] at h; cases h)
      obtain ⟨l, hl⟩ := hs.log_sub (fun srv h => (hwf srv h).wf)
      simp only at hsync hstat
      rw [hl] at hsync hstat
      have hsync1 := hsync.mono
      have hstat1 := fun hm => hstat (List.mem_append_left l hm)
      have h1 := ih hpc' hps' hsync1 hstat1
      have hinv := hr.inv hA h0 hi hpc' hps' hsync1 hstat1
      have pk : ∀ {w : World} {s : Server} {env : Env} {dg : List Byte} {src : Ip} {o : Option Server} {w' cw : World}, CKey A pwc (counterPath cdir) b [] cw → OnlySentBy A b cw dg →
          (∀ h, s.handlers.get b.k = some h → h.key = b.key) → (∀ x ∈ forwards w.log, x.1.take 8 = b.k → FromClient A b cw x) → PacketCase A s dg src (w.withEnv env (dg.take MSG_SIZE)) o w' →
          ∀ x ∈ forwards w'.log, x.1.take 8 = b.k → FromClient A b cw x := by
        intro w s env dg src o w' cw hck hos hkeys hx h
        cases h with
        | nothing s' _ hb hh hc h1 h2 h3 =>
          have e3 : w'.log = w.log := h3
          rw [e3]
          exact hx
        | saved now d hclk ha c o ho _ w' hy hsv =>
          rw [hsv.forwards]
          exact hx
        | acted now d hclk ha c _ w1 w' o hy hsv hsent =>
          have hf1 : forwards w1.log = forwards w.log := hsv.forwards
          rcases hsent.forwards with h1 | ⟨k, h1⟩
          · rw [h1, hf1]
            exact hx
          · rw [h1, hf1, show w1.cur = dg.take MSG_SIZE from hsv.cur]
            intro x hmem hk
            rcases List.mem_append.1 hmem with h | h
            · exact hx x h hk
            · simp only [List.mem_singleton] at h
              subst h
              obtain ⟨hh, hg, hse⟩ := ha.sealed
              have e8 : (dg.take MSG_SIZE).take 8 = dg.take 8 := by simp [MSG_SIZE, List.take_take]
              have hk' : dg.take 8 = b.k := e8 ▸ hk
              rw [hk'] at hg
              rw [hkeys hh hg] at hse
              obtain ⟨ip, port, hm⟩ := datagram_sent hA hck hk' hos hse
              exact ⟨ip, port, d, src, k, hm, (seals_take _ _ _ _).2 hse, rfl, rfl⟩
      have startLog : ∀ {cfg senv o w' w env}, Created cfg senv (World.withEnv w env []) o w' → forwards w'.log = forwards w.log := by
        intro cfg senv o w' w env h
        obtain ⟨l, hl, hfe⟩ := h.log
        rw [hl, forwards_append, forwards_fileEvents hfe, List.append_nil]; rfl
      have hck := hinv.key
      have hh := hinv.srv.handlers
      clear ih hinv hr hrun hl hsync1 hstat1 hsync hstat
      rename_i jm _
      obtain ⟨cw, sys⟩ := jm
      simp only at *
      cases hs with
      | started w env cfg senv s w' hdir hord h =>
        simp only [startLog (created_of_step hord h)]
        exact h1
      | startFailed w env cfg senv o w' hdir hord h hne =>
        simp only [startLog (created_of_step hord h)]
        exact h1
      | packet w s env dg src rd tLog s' r w' h => exact pk hck ha (fun h hg => (hh s rfl h hg).1) h1 (packetCase_of_step (hwf s rfl).wf h)
      | packetCrash w s env dg src rd tLog w' h => exact pk hck ha (fun h hg => (hh s rfl h hg).1) h1 (packetCase_of_step (hwf s rfl).wf h)
      | kill w s => exact h1
      | power w s w' h => simp only [h.log]; exact h1
      | others w w' s hfs hpend hlog => simp only [hlog]; exact h1

/-- A datagram of the client, and the send it is for: if it is made with the key, it holds what that send asked for. -/
def ForSend (A : Aead) (hash : List Char → U64) (b : Bond) (p : SendCmd × (Ip × Nat × U128 × List Byte)) : Prop :=
  p.2.2.2.2.take 8 = b.k → ∃ d src, Seals A b.key p.2.2.2.2 d ∧ d.cmdHash = hash p.1.command ∧ parseIpOption p.1.ip = .ok src ∧ d.srcIp = readSrc src

/-- The datagrams of one send. -/
theorem send_pairs {A : Aead} (hA : A.Correct) {hash : List Char → U64} {b : Bond} {dir : Path} {held : Bool} {cmd : SendCmd} {senv : SendEnv} {w w' : World} {o : Out Unit}
    (h : runSend A hash dir held cmd senv w = (o, w')) (hkey : ∀ t h, senv.keyText = some t → CryptoHandler.create (trim t) = .ok h → h.id = b.k → h.key = b.key)
    (hrnd : ∀ i iv, senv.rnd i = some iv → iv.length = 12) :
    ∃ ps : List (SendCmd × (Ip × Nat × U128 × List Byte)), datagrams w'.log = datagrams w.log ++ ps.map Prod.snd ∧ (ps.map Prod.fst).Sublist (chances cmd) ∧ ∀ p ∈ ps, ForSend A hash b p := by
  obtain ⟨sent, h1, h2, h3⟩ := C53_datagrams_per_send_partial A hash dir held cmd senv w w' o h
  have h4 := runSend_asked A hash dir held cmd senv w
  unfold wp at h4
  rw [h] at h4
  obtain ⟨l, hl, hp⟩ := h4
  have hl : w'.log = w.log ++ l := hl
  have hsent : sent = datagrams l := by
    rw [hl] at h1
    unfold datagrams at h1 ⊢
    rw [List.filterMap_append] at h1
    exact (List.append_cancel_left h1).symm
  have hsnd : (sent.map (fun x => (cmd, x))).map Prod.snd = sent := by
    rw [List.map_map]
    exact List.map_id sent
  refine ⟨sent.map (fun x => (cmd, x)), by rw [h1, hsnd], ?_, ?_⟩
  · have : (sent.map (fun x => (cmd, x))).map Prod.fst = List.replicate sent.length cmd := by
      rw [List.map_map]
      exact List.map_const' ..
    rw [this]
    unfold chances
    split
    · rename_i hne
      have := h3 (.inl hne)
      rw [show [cmd] = List.replicate 1 cmd from rfl]
      exact (List.replicate_sublist_replicate _).2 this
    · rw [show [cmd, cmd] = List.replicate 2 cmd from rfl]
      exact (List.replicate_sublist_replicate _).2 h2
  · intro p hpm hk
    obtain ⟨x, hx, rfl⟩ := List.mem_map.1 hpm
    rw [hsent] at hx
    obtain ⟨_, kt, hh, src, address, dsts, e1, e2, e3, e4, e5, e6, i, iv, e7, e8⟩ := hp _ (mem_datagrams hx) x.1 x.2.1 x.2.2.1 x.2.2.2 rfl
    obtain ⟨_, k1, k2⟩ := (create_ok_iff _ _).1 e2
    obtain ⟨f1, f2, f3⟩ := packet_seals hA k1 k2 (hrnd i iv e7) e8
    rw [hkey kt hh e1 e2 (f2.symm.trans hk)] at f3
    exact ⟨_, src, f3, rfl, e3, rfl⟩

/-- A reseed sends nothing. -/
theorem reseed_datagrams (A : Aead) (hash : List Char → U64) {dir : Path} {held : Bool} {env : Env} {w w' : World} {o : Out Unit} (h : runReseed dir held (w.withEnv env []) = (o, w')) :
    datagrams w'.log = datagrams w.log := by
  have h0 : ShowsStamp false (counterPath dir) (w.withEnv env []) ⟨reading (w.fs (counterPath dir)), []⟩ := ⟨rfl, nofun, nofun⟩
  have := stamp_reseed A hash dir held env false _ _ rfl rfl h0
  unfold wp at this
  rw [h] at this
  obtain ⟨_, _, e, _⟩ := this.2 nofun
  exact e

/-- All datagrams of the client, in order, with the sends they are for. -/
theorem client_pairs {A : Aead} (hA : A.Correct) {hash : List Char → U64} {b : Bond} {cdir sdir : Path} {j j' : Joint} {evs : List JEv} (h : JRun A hash b cdir sdir j evs j')
    (h0 : datagrams j.cw.log = []) :
    ∃ ps : List (SendCmd × (Ip × Nat × U128 × List Byte)), datagrams j'.cw.log = ps.map Prod.snd ∧ (ps.map Prod.fst).Sublist ((asked evs).flatMap chances) ∧ ∀ p ∈ ps, ForSend A hash b p := by
  induction h with
  | nil => exact ⟨[], h0, .slnil, nofun⟩
  | snoc hr hst ih =>
    obtain ⟨ps, h1, h2, h3⟩ := ih
    rw [asked_append, List.flatMap_append]
    cases hst with
    | server e sys' ha hs => exact ⟨ps, h1, h2.trans (List.sublist_append_left _ _), h3⟩
    | client e cw' ha hs =>
      cases hs with
      | send env held cmd senv o _ hrun =>
        obtain ⟨qs, g1, g2, g3⟩ := send_pairs hA hrun ha.1 ha.2.1
        refine ⟨ps ++ qs, ?_, ?_, ?_⟩
        · rw [List.map_append, ← h1]
          exact g1
        · rw [List.map_append]
          refine h2.append ?_
          have : List.flatMap chances (asked [.client (.send env held cmd senv)]) = chances cmd := by
            show List.flatMap chances [cmd] = _
            rw [List.flatMap_cons, List.flatMap_nil, List.append_nil]
          rw [this]
          exact g2
        · intro p hp
          rcases List.mem_append.1 hp with hp | hp
          · exact h3 p hp
          · exact g3 p hp
      | reseed env held o _ hrun =>
        exact ⟨ps, by rw [← h1]; exact reseed_datagrams A hash hrun, h2.trans (List.sublist_append_left _ _), h3⟩
      | power _ hp => exact ⟨ps, by rw [← h1]; simp only [hp.log], h2.trans (List.sublist_append_left _ _), h3⟩
      | others _ hfs hpend hlog => exact ⟨ps, by rw [← h1]; simp only [hlog], h2.trans (List.sublist_append_left _ _), h3⟩

theorem JRun.server_power {A : Aead} {hash : List Char → U64} {b : Bond} {cdir sdir : Path} {j j' : Joint} {evs : List JEv} (h : JRun A hash b cdir sdir j evs j') :
    ∃ sevs, Run A sdir j.sys sevs j'.sys ∧ ∀ e ∈ sevs, .server e ∈ evs := by
  induction h with
  | nil => exact ⟨[], .nil _, nofun⟩
  | snoc hr hst ih =>
    obtain ⟨sevs, h, hm⟩ := ih
    cases hst with
    | client e cw' ha hs => exact ⟨sevs, h, fun e he => List.mem_append_left _ (hm e he)⟩
    | server e sys' ha hs =>
      refine ⟨sevs ++ [e], h.snoc hs, fun e' he => ?_⟩
      rcases List.mem_append.1 he with he | he
      · exact List.mem_append_left _ (hm e' he)
      · rw [List.mem_singleton] at he
        subst he
        exact List.mem_append_right _ (by simp)

/-- A sublist of one half of a list of pairs, with the other halves. -/
theorem pairs_of_sublist {α β γ δ : Type} (g : γ → δ) (h : β → δ) (fs : List γ) (ps : List (α × β)) (hs : (fs.map g).Sublist (ps.map (fun p => h p.2))) :
    ∃ qs : List (α × γ), qs.map Prod.snd = fs ∧ (qs.map Prod.fst).Sublist (ps.map Prod.fst) ∧ ∀ q ∈ qs, ∃ p ∈ ps, p.1 = q.1 ∧ h p.2 = g q.2 := by
  induction ps generalizing fs with
  | nil =>
    cases fs with
    | nil => exact ⟨[], rfl, .slnil, nofun⟩
    | cons f fs => cases hs
  | cons p ps ih =>
    have weak : ∀ {q : α × γ}, (∃ p' ∈ ps, p'.1 = q.1 ∧ h p'.2 = g q.2) → ∃ p' ∈ p :: ps, p'.1 = q.1 ∧ h p'.2 = g q.2 := by
      rintro q ⟨p', a, b⟩
      exact ⟨p', List.mem_cons_of_mem _ a, b⟩
    cases fs with
    | nil => exact ⟨[], rfl, List.nil_sublist _, nofun⟩
    | cons f fs =>
      rw [List.map_cons, List.map_cons] at hs
      generalize hy : h p.2 = y at hs
      generalize hx : g f = x at hs
      cases hs with
      | cons _ hs =>
        obtain ⟨qs, h1, h2, h3⟩ := ih (f :: fs) (by rw [List.map_cons, hx]; exact hs)
        exact ⟨qs, h1, h2.cons _, fun q hq => weak (h3 q hq)⟩
      | cons_cons _ hs =>
        obtain ⟨qs, h1, h2, h3⟩ := ih fs hs
        refine ⟨(p.1, f) :: qs, by rw [List.map_cons, h1], h2.cons_cons _, ?_⟩
        intro q hq
        rcases List.mem_cons.1 hq with rfl | hq
        · exact ⟨p, by simp, rfl, by rw [hy, hx]⟩
        · exact weak (h3 q hq)

/-- **C112a.** What the server hands over for the key, in the order in which it hands it over, is a sublist of what the client sent, in the order in which it sent it: the network may lose, repeat
and reorder datagrams, but nothing is acted on twice or in another order. -/
theorem C112_in_order {A : Aead} (hA : A.Correct) {hash : List Char → U64} {b : Bond} {cdir sdir : Path} {j0 j : Joint} {evs : List JEv} (h : JRun A hash b cdir sdir j0 evs j)
    (hi : JInit b cdir sdir j0) (hf : forwards j0.sys.w.log = []) (hc : JCovered cdir sdir evs j) :
    (((forwards j.sys.w.log).filter (OfKey b)).map (fun x => (x.1, x.2.1))).Sublist ((datagrams j.cw.log).map (fun y => (y.2.2.2, y.2.2.1))) := by
  obtain ⟨pwc, hpc, hsc⟩ : ∃ pwc, (.client .power ∈ evs → pwc = true) ∧ SyncedAt pwc (counterPath cdir) j.cw.log := by
    by_cases hp : .client .power ∈ evs
    · exact ⟨true, fun _ => rfl, fun _ => hc.client hp⟩
    · exact ⟨false, fun h => absurd h hp, nofun⟩
  obtain ⟨pws, hps, hss⟩ : ∃ pws, (.server .power ∈ evs → pws = true) ∧ SyncOk pws sdir j.sys.w.log := by
    by_cases hp : .server .power ∈ evs
    · exact ⟨true, fun _ => rfl, fun _ => hc.server hp⟩
    · exact ⟨false, fun h => absurd h hp, nofun⟩
  have hinv := h.inv hA hi.stopped (hi.inv pwc pws) hpc hps hss hc.stat
  have hfrom := forwards_from_client hA h hi.stopped (hi.inv pwc pws) hpc hps hss hc.stat hf
  refine sublist_of_increasing (fun y => y.2.toNat) _ _ ?_ ?_ ?_
  · obtain ⟨sevs, hrun, hm⟩ := h.server_power
    have hj : j0.sys = ⟨j0.sys.w, none⟩ := by rw [← hi.stopped]
    rw [hj] at hrun
    have hinc := C07_counters_strictly_increase A sdir _ _ _ hrun hf hc.stat (fun hp => hc.server (hm _ hp))
    rw [List.pairwise_map]
    refine List.Pairwise.imp_of_mem ?_ (hinc.filter _)
    intro x y hx hy hxy
    have h1 : x.1.take 8 = b.k := by simpa [OfKey] using (List.mem_filter.1 hx).2
    have h2 : y.1.take 8 = b.k := by simpa [OfKey] using (List.mem_filter.1 hy).2
    exact hxy (h1.trans h2.symm)
  · have := (hinv.inv hsc).increasing
    rw [wire_datagrams, List.pairwise_map] at this
    rw [List.pairwise_map]
    exact this
  · intro x hx
    obtain ⟨y, hy, rfl⟩ := List.mem_map.1 hx
    obtain ⟨hy1, hy2⟩ := List.mem_filter.1 hy
    obtain ⟨ip, port, d, src, n, g1, _⟩ := hfrom y hy1 (by simpa [OfKey] using hy2)
    refine List.mem_map.2 ⟨(ip, port, y.2.1, y.1), ?_, rfl⟩
    unfold datagrams
    exact List.mem_filterMap.2 ⟨_, g1, rfl⟩

/-- **C112b.** From the user to the shell: the commands the commander executes belong, in order, to messages the server handed over; those that came with the key belong, in the order in which they are
executed, to sends of the user, in the order in which the user made them, each used at most once (or twice, if it was for both address families); and each execution is the one asked for. -/
theorem C112_executed_in_order {A : Aead} (hA : A.Correct) {hash : List Char → U64} {b : Bond} {cdir sdir : Path} {j0 j : Joint} {evs : List JEv} (h : JRun A hash b cdir sdir j0 evs j)
    (hi : JInit b cdir sdir j0) (hf : forwards j0.sys.w.log = []) (hc : JCovered cdir sdir evs j) (c : Commander) (pre : Path) (circumstances : List (Bool × ChildEnv)) (w1 : World) :
    ∃ l, (c.serve pre (Delivered j.sys.w.log circumstances) w1).2.log = w1.log ++ l ∧
      ∃ ex : List ((List Byte × U128 × List Byte) × (List Char × Ip)), ex.map Prod.snd = spawns l ∧ (ex.map Prod.fst).Sublist (forwards j.sys.w.log) ∧
        ∃ qs : List (SendCmd × (List Char × Ip)), qs.map Prod.snd = (ex.filter (fun e => OfKey b e.1)).map Prod.snd ∧ (qs.map Prod.fst).Sublist ((asked evs).flatMap chances) ∧
          ∀ q ∈ qs, AsAsked hash c q.1 q.2 := by
  obtain ⟨l, h1, h2⟩ := C29_failures_only_omit c pre (Delivered j.sys.w.log circumstances) w1
  refine ⟨l, h1, ?_⟩
  obtain ⟨xs, h3, h4, h5⟩ := sublist_of_zipWith h2
  have hz1 : (xs.zip (spawns l)).map Prod.fst = xs := List.map_fst_zip (by omega)
  have hz2 : (xs.zip (spawns l)).map Prod.snd = spawns l := List.map_snd_zip (by omega)
  refine ⟨xs.zip (spawns l), hz2, by rw [hz1]; exact h3, ?_⟩
  have hno : datagrams j0.cw.log = [] := by
    have := hi.nothingSent
    rw [wire_datagrams] at this
    exact List.map_eq_nil_iff.1 this
  obtain ⟨ps, p1, p2, p3⟩ := client_pairs hA h hno
  have hsub := C112_in_order hA h hi hf hc
  rw [p1, List.map_map] at hsub
  have hsub2 : (((xs.zip (spawns l)).filter (fun e => OfKey b e.1)).map (fun e => (e.1.1, e.1.2.1))).Sublist (ps.map (fun p => (p.2.2.2.2, p.2.2.2.1))) := by
    refine List.Sublist.trans ?_ hsub
    have e : ((xs.zip (spawns l)).filter (fun e => OfKey b e.1)).map (fun e => (e.1.1, e.1.2.1)) = (xs.filter (OfKey b)).map (fun x => (x.1, x.2.1)) := by
      conv => rhs; rw [← hz1, List.filter_map, List.map_map]
      rfl
    rw [e]
    exact (h3.filter _).map _
  obtain ⟨qs, q1, q2, q3⟩ := pairs_of_sublist (fun e : (List Byte × U128 × List Byte) × (List Char × Ip) => (e.1.1, e.1.2.1)) (fun y : Ip × Nat × U128 × List Byte => (y.2.2.2, y.2.2.1)) _ ps hsub2
  refine ⟨qs.map (fun q => (q.1, q.2.2)), ?_, ?_, ?_⟩
  · rw [← q1, List.map_map, List.map_map]
    rfl
  · rw [List.map_map]
    exact q2.trans p2
  · intro q' hq'
    obtain ⟨q, hq, rfl⟩ := List.mem_map.1 hq'
    obtain ⟨p, hp, hpq, he⟩ := q3 q hq
    have hmem : q.2 ∈ (xs.zip (spawns l)).filter (fun e => OfKey b e.1) := by
      rw [← q1]
      exact List.mem_map_of_mem hq
    obtain ⟨hmem, hk⟩ := List.mem_filter.1 hmem
    obtain ⟨hx, circ, hcf⟩ := h5 _ hmem
    have hk' : q.2.1.1.take 8 = b.k := by simpa [OfKey] using hk
    obtain ⟨pws, hps, hss⟩ : ∃ pws, (.server .power ∈ evs → pws = true) ∧ SyncOk pws sdir j.sys.w.log := by
      by_cases hp : .server .power ∈ evs
      · exact ⟨true, fun _ => rfl, fun _ => hc.server hp⟩
      · exact ⟨false, fun h => absurd h hp, nofun⟩
    obtain ⟨ip, port, d, src, n, g1, g2, g3, g4⟩ := forwards_from_client hA h hi.stopped (hi.inv true pws) (fun _ => rfl) hps hss hc.stat hf q.2.1 hx hk'
    injection he with he1 he2
    obtain ⟨d', src', f1, f2, f3, f4⟩ := p3 p hp (by rw [he1]; exact hk')
    rw [he1] at f1
    obtain rfl : d = d' := by
      obtain ⟨a, a1, a2, a3⟩ := f1
      obtain ⟨a', b1, b2, b3⟩ := g2
      rw [a1] at b1
      cases b1
      rw [a3] at b3
      cases b3
      rfl
    rw [g4] at hcf
    unfold commandFor at hcf
    cases hq : request (.stream circ.1 ((message d (normalizeIp src)).take n) circ.2) with
    | none => rw [hq] at hcf; cases hcf
    | some y =>
      obtain ⟨hv, ip'⟩ := y
      rw [hq] at hcf
      simp only at hcf
      obtain ⟨rfl, hip⟩ := request_message hq
      cases hg : c.cmds.get d.cmdHash with
      | none => rw [hg] at hcf; cases hcf
      | some spec =>
        rw [hg] at hcf
        simp only at hcf
        split at hcf
        · injection hcf with hcf
          rw [f2, hpq] at hg
          refine ⟨⟨spec, hg, by show q.2.2.1 = _; rw [← hcf]⟩, ?_⟩
          intro t a ht ha hne
          show SameHost q.2.2.2 a
          rw [← hcf]
          rw [hpq, ht] at f3
          unfold parseIpOption at f3
          simp only [ha] at f3
          cases f3
          rw [f4] at hip
          unfold readSrc at hip
          simp only [if_neg hne, Option.getD_some] at hip
          rw [← normalizeIp_eq_iff_sameHost] at hip ⊢
          rw [hip, (C06_normalize_idempotent _).1]
        · cases hcf

/-- **C112c.** If the key is the only one the server ever finds, then this accounts for everything that is executed. -/
theorem C112_sole_user {A : Aead} (hA : A.Correct) {hash : List Char → U64} {b : Bond} {cdir sdir : Path} {j0 j : Joint} {evs : List JEv} (h : JRun A hash b cdir sdir j0 evs j)
    (hi : JInit b cdir sdir j0) (hf : forwards j0.sys.w.log = []) (hc : JCovered cdir sdir evs j)
    (hsole : ∀ env cfg senv k, .server (.start env cfg senv) ∈ evs → HasKey senv.dir k → k.id = b.k) (c : Commander) (pre : Path) (circumstances : List (Bool × ChildEnv)) (w1 : World) :
    ∃ l, (c.serve pre (Delivered j.sys.w.log circumstances) w1).2.log = w1.log ++ l ∧
      ∃ qs : List (SendCmd × (List Char × Ip)), qs.map Prod.snd = spawns l ∧ (qs.map Prod.fst).Sublist ((asked evs).flatMap chances) ∧ ∀ q ∈ qs, AsAsked hash c q.1 q.2 := by
  obtain ⟨l, h1, ex, e1, e2, qs, q1, q2, q3⟩ := C112_executed_in_order hA h hi hf hc c pre circumstances w1
  refine ⟨l, h1, qs, ?_, q2, q3⟩
  rw [q1, ← e1]
  congr 1
  rw [List.filter_eq_self]
  intro e he
  have hx := e2.subset (List.mem_map_of_mem (f := Prod.fst) he)
  obtain ⟨sevs, hrun, hm⟩ := h.server_power
  obtain ⟨pre, env, dg, src, rd, t, post, cfg, dir, d, n, rfl, hst, hleg, hx⟩ := (run_traced hrun hi.stopped hf).2 _ hx
  obtain ⟨k, hk, hid, _⟩ := hleg.key
  obtain ⟨p, env', senv, mid, rfl, rfl, _⟩ := hst
  have := hsole env' cfg senv k (hm _ (by simp)) hk
  simp only [OfKey, hx, List.take_take, decide_eq_true_eq]
  rw [show min 8 94 = 8 from rfl, ← hid, this]

/-! ## A case -/

theorem exJoint_covered : JCovered "/c".toList "/s".toList [.server exDualStart, .client exSendEv, .server (exArrival exBytes4), .server (exArrival exBytes6)] ⟨exClient1, exSys3⟩ where
  client := by simp [exSendEv]
  server := by simp [exDualStart, exArrival]
  stat := by decide +kernel

/-- One send, for both address families; both datagrams arrive and both are executed. -/
theorem exInOrder : asked [.server exDualStart, .client exSendEv, .server (exArrival exBytes4), .server (exArrival exBytes6)] = [exOpen] ∧ chances exOpen = [exOpen, exOpen] ∧
    spawns (exCommander.serve [] (Delivered exSys3.w.log [(false, exEnv), (false, exEnv)]) (exCmdrWorld [])).2.log =
      [("ufw allow".toList, .v4 0x08080808), ("ufw allow".toList, .v4 0x08080808)] ∧ exOpen.command = "open".toList ∧ exOpen.ip = some "8.8.8.8".toList := by
  refine ⟨rfl, by decide +kernel, by decide +kernel, by decide +kernel, by decide +kernel⟩

/-- The hypotheses of C112 are met by that case. -/
example := C112_in_order toyAead_correct exJoint_run exJoint_init rfl exJoint_covered

example := C112_executed_in_order toyAead_correct exJoint_run exJoint_init rfl exJoint_covered exCommander [] [(false, exEnv), (false, exEnv)] (exCmdrWorld [])

/-- Its key directory holds the one key (and files that are no keys). -/
theorem exDir_sole (k : CryptoHandler) (h : HasKey exDir k) : k.id = exBond.k := by
  obtain ⟨es, he, e, hm, _, hk⟩ := h
  have hall : ∀ es, exDir = some es → ∀ e ∈ es, ∀ k, keyOf e = some k → k.id = exBond.k := by
    have : (exDir.getD []).all (fun e => ((keyOf e).map (fun k => decide (k.id = exBond.k))).getD true) = true := by decide +kernel
    intro es he e hm k hk
    rw [he] at this
    have := List.all_eq_true.1 this e hm
    rw [hk] at this
    simpa using this
  exact hall es he e hm k hk

example := C112_sole_user toyAead_correct exJoint_run exJoint_init rfl exJoint_covered (fun env cfg senv k hm hk => by
  simp only [exDualStart, exSendEv, exArrival, List.mem_cons, List.not_mem_nil, or_false, reduceCtorEq, JEv.server.injEq, Ev.start.injEq] at hm
  obtain ⟨_, _, rfl⟩ := hm
  exact exDir_sole k hk) exCommander [] [(false, exEnv), (false, exEnv)] (exCmdrWorld [])

end Ruroco
