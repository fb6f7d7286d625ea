import Verif.Model.AtOnceJoint
import Verif.Props.AtOnce
import Verif.Props.InOrder
import Verif.Spec.Terms.AtOnceJoint

/-!
# C114: end to end, with clients at the same time
-/

namespace Ruroco.AtOnce

open Ruroco.Spec Ruroco.Spec.AtOnce

/-- Histories of the two machines with one event after the other. -/
def jturns (A : Aead) (hash : List Char → U64) (b : Bond) (cdir sdir : Path) (j0 : Joint) : Turn cdir (Sys × List Ev) where
  holds x l v := ∃ evs, JRun A hash b cdir sdir j0 evs ⟨v, x.1⟩ ∧ serverEvents evs = x.2 ∧ (clientEvents evs).map did = l.map some
  asked job := ∀ cmd senv, job = .send cmd senv →
    (∀ t h, senv.keyText = some t → CryptoHandler.create (trim t) = .ok h → h.id = b.k → h.key = b.key) ∧ ∀ i iv, senv.rnd i = some iv → iv.length = 12
  reads job v t := b.T ≤ t.toNat ∧ (job = .reseed → ∀ c ∈ wire v.log, c.toNat ≤ t.toNat)

theorem jturns_goes (A : Aead) (hash : List Char → U64) (b : Bond) (cdir sdir : Path) (j0 : Joint) : (jturns A hash b cdir sdir j0).Goes A hash where
  job := by
    rintro x l v job env o u ⟨evs, hr, hs, hd⟩ hask hread h
    refine ⟨evs ++ [.client (event job env)], .snoc hr (.client ⟨v, x.1⟩ _ u ?_ (cstep_job h)), ?_, ?_⟩
    · cases job with
      | send cmd senv => exact ⟨(hask cmd senv rfl).1, (hask cmd senv rfl).2, fun _ t ht => (hread t ht).1⟩
      | reseed => exact fun t ht => ⟨(hread t ht).1, (hread t ht).2 rfl⟩
    · unfold serverEvents at hs ⊢
      rw [List.filterMap_append, hs]
      simp
    · unfold clientEvents at hd ⊢
      rw [List.filterMap_append, List.map_append, hd, List.map_append]
      simp [did_event]
  power := by
    rintro x l v v' ⟨evs, hr, hs, hd⟩ h
    refine ⟨evs ++ [.client .power], .snoc hr (.client ⟨v, x.1⟩ .power v' True.intro (.power v v' h)), ?_, ?_⟩
    · unfold serverEvents at hs ⊢
      rw [List.filterMap_append, hs]
      simp
    · unfold clientEvents at hd ⊢
      rw [List.filterMap_append, List.map_append, hd, List.map_append]
      simp [did]

theorem seen_udp {dir : Path} {log : List Event} {ip : Ip} {port : Nat} {c : U128} {bytes : List Byte} (h : .udp ip port c bytes ∈ log) : .udp ip port c bytes ∈ seen dir log :=
  List.mem_filter.2 ⟨h, by simp⟩

theorem wire_mem {log : List Event} {c : U128} : c ∈ wire log ↔ ∃ ip port bytes, .udp ip port c bytes ∈ log := by
  unfold wire
  rw [List.mem_filterMap]
  constructor
  · rintro ⟨e, he, h⟩
    cases e <;> simp at h
    subst h
    exact ⟨_, _, _, he⟩
  · rintro ⟨ip, port, bytes, h⟩
    exact ⟨_, h, rfl⟩

theorem jturns_allows {A : Aead} {hash : List Char → U64} {b : Bond} {cdir sdir : Path} {j0 : Joint} {s : Machine} {a : Move} (h : MoveAssumed b s a) : (jturns A hash b cdir sdir j0).Allows s a where
  asked := by
    rintro p job rfl cmd senv rfl
    exact h
  reads := by
    rintro p os ts rfl l job v t hd hlog ht
    refine ⟨(h t ht).1, ?_⟩
    rintro rfl c hc
    obtain ⟨ip, port, bytes, hm⟩ := wire_mem.1 hc
    exact (h t ht).2 l hd c (wire_mem.2 ⟨_, _, _, hlog _ (seen_udp hm)⟩)

/-- The server's machine moves on. -/
theorem MInv.serverMoves {dir : Path} {σ : Type} {T : Turn dir σ} {A : Aead} {hash : List Char → U64} {x x' : σ} {s : Machine} (h : MInv T A hash x s)
    (hx : ∀ v, (∀ e ∈ seen dir s.w.log, e ∈ v.log) → T.holds x s.did v → T.holds x' s.did v) : MInv T A hash x' s := by
  refine ⟨h.holder, fun hn => ?_, fun p rest hp => ?_⟩
  · obtain ⟨v, hr, hal⟩ := h.quiet hn
    exact ⟨v, hx v (fun e he => by rw [hal.log] at he; exact seen_mem he) hr, hal⟩
  · obtain ⟨hst, l, v, job, os, ts, u, hdid, hal, hts, hlog, hgo, hend⟩ := h.busy p rest hp
    exact ⟨hst, l, v, job, os, ts, u, hdid, hal, hts, hlog, hgo, fun env o u' h1 h2 h3 => hx u' h3 (hend env o u' h1 h2 h3)⟩

theorem serverAssumed_mono {A : Aead} {b : Bond} {cdir sdir : Path} {cw v sw : World} {e : Ev} (h : ServerAssumed A b sdir cw sw e) (hv : ∀ e ∈ seen cdir cw.log, e ∈ v.log) : ServerAssumed A b sdir v sw e := by
  cases e with
  | packet env dg src rd t =>
    intro h1 h2
    obtain ⟨ip, port, c, hm⟩ := h h1 h2
    exact ⟨ip, port, c, hv _ (seen_udp hm)⟩
  | _ => exact h

theorem jminv_run {A : Aead} {hash : List Char → U64} {b : Bond} {cdir sdir : Path} {code : Job → Prog Unit} (hcode : IsCode A hash cdir code) {w : World} {s0 : Sys} {sevs : List Ev} {j : JMachine}
    (h : JMRun A b cdir sdir code ⟨Machine.start w, s0⟩ sevs j) : MInv (jturns A hash b cdir sdir ⟨w, s0⟩) A hash (j.sys, sevs) j.m := by
  induction h with
  | nil => exact minv_start _ A hash _ w ⟨[], .nil _, rfl, rfl⟩
  | client _ ha hs ih => exact minv_step (jturns_goes A hash b cdir sdir _) hcode ih (jturns_allows ha) hs
  | @server evs j e sys' _ ha hs ih =>
    refine ih.serverMoves fun v hv hh => ?_
    obtain ⟨jevs, hr, h1, h2⟩ := hh
    refine ⟨jevs ++ [.server e], .snoc hr (.server ⟨v, j.sys⟩ e sys' (serverAssumed_mono ha hv) hs), ?_, ?_⟩
    · unfold serverEvents at h1 ⊢
      rw [List.filterMap_append, h1]
      simp
    · unfold clientEvents at h2 ⊢
      rw [List.filterMap_append, List.map_append, h2]
      simp

/-- **C114.** Clients at the same time, the server receiving datagrams while their senders are still at work: whenever no client is in the middle of a job, the two machines are as after a history of the two machines (`JRun`) in which
every send and every reseed happened at once, with the same events on the server machine in the same order, and the same jobs on the client machine in the order in which they began. -/
theorem C114_at_once {A : Aead} {hash : List Char → U64} {b : Bond} {cdir sdir : Path} {code : Job → Prog Unit} (hcode : IsCode A hash cdir code) {w : World} {s0 : Sys} {sevs : List Ev} {j : JMachine}
    (h : JMRun A b cdir sdir code ⟨Machine.start w, s0⟩ sevs j) (hq : ∀ p, ¬ (j.m.proc p).works) :
    ∃ evs v, JRun A hash b cdir sdir ⟨w, s0⟩ evs ⟨v, j.sys⟩ ∧ serverEvents evs = sevs ∧ (clientEvents evs).map did = j.m.did.map some ∧ Alike cdir j.m.w v := by
  obtain ⟨v, ⟨evs, h1, h2, h3⟩, h4⟩ := (jminv_run hcode h).quiet hq
  exact ⟨evs, v, h1, h2, h3, h4⟩

theorem asked_sends : ∀ {evs : List JEv} {l : List Did}, (clientEvents evs).map did = l.map some → asked evs = sends l := by
  intro evs
  induction evs with
  | nil =>
    intro l h
    cases l with
    | nil => rfl
    | cons _ _ => cases h
  | cons e evs ih =>
    intro l h
    cases e with
    | server e => exact ih (l := l) h
    | client e =>
      have h' : did e :: (clientEvents evs).map did = l.map some := h
      cases l with
      | nil => cases h'
      | cons d l =>
        rw [List.map_cons, List.cons.injEq] at h'
        have := ih h'.2
        cases e with
        | send env held cmd senv =>
          cases held with
          | true => cases h'.1
          | false =>
            cases h'.1
            show cmd :: asked evs = cmd :: sends l
            rw [this]
        | reseed env held =>
          cases held with
          | true => cases h'.1
          | false => cases h'.1; exact this
        | power => cases h'.1; exact this
        | others => cases h'.1

theorem JMRun.silent {A : Aead} {b : Bond} {cdir sdir : Path} {code : Job → Prog Unit} {j0 : JMachine} {sevs : List Ev} {j : JMachine} (h : JMRun A b cdir sdir code j0 sevs j) {m' : Machine}
    (hm : RunVia cdir code Silent j.m m') : JMRun A b cdir sdir code j0 sevs ⟨m', j.sys⟩ := by
  obtain ⟨m, sys⟩ := j
  induction hm with
  | nil => exact h
  | @snoc s1 s2 a _ hsil hs ih =>
    refine .client (j := ⟨s1, sys⟩) ih ?_ hs
    rcases hsil with ⟨p, rfl⟩ | ⟨p, os, ts, hts, rfl⟩
    · exact True.intro
    · exact fun t ht => absurd ht (hts t)

/-- **C114**, the commands are executed in the order in which they were asked for (C112), also by clients at the same time, and at every moment: what the commander executes belongs to sends in the order in which they began, each used
at most once (twice, if it was not restricted to one address family), and is what that send asked for. The server has no other key. -/
theorem C114_executed_in_order {A : Aead} (hA : A.Correct) {hash : List Char → U64} {b : Bond} {cdir sdir : Path} {code : Job → Prog Unit} (hcode : IsCode A hash cdir code) {w : World} {s0 : Sys} {sevs : List Ev}
    {j : JMachine} (h : JMRun A b cdir sdir code ⟨Machine.start w, s0⟩ sevs j) (hi : JInit b cdir sdir ⟨w, s0⟩) (hf : forwards s0.w.log = [])
    (hclient : .power ∈ j.m.did → (∀ p, ¬ (j.m.proc p).works) ∧ .dirSyncFailed (counterPath cdir) ∉ j.m.w.log) (hserver : .power ∈ sevs → .dirSyncFailed (blocklistPath sdir) ∉ j.sys.w.log)
    (hstat : .statFailed (blocklistPath sdir) ∉ j.sys.w.log) (hsole : ∀ env cfg senv k, .start env cfg senv ∈ sevs → HasKey senv.dir k → k.id = b.k)
    (c : Commander) (pre : Path) (circumstances : List (Bool × ChildEnv)) (w1 : World) :
    ∃ l, (c.serve pre (Delivered j.sys.w.log circumstances) w1).2.log = w1.log ++ l ∧
      ∃ qs : List (SendCmd × (List Char × Ip)), qs.map Prod.snd = spawns l ∧ (qs.map Prod.fst).Sublist ((sends j.m.did).flatMap chances) ∧ ∀ q ∈ qs, AsAsked hash c q.1 q.2 := by
  have key : ∀ j' : JMachine, JMRun A b cdir sdir code ⟨Machine.start w, s0⟩ sevs j' → (∀ p, ¬ (j'.m.proc p).works) → j'.sys = j.sys → j'.m.did = j.m.did →
      (.power ∈ j'.m.did → .dirSyncFailed (counterPath cdir) ∉ j'.m.w.log) →
      ∃ l, (c.serve pre (Delivered j.sys.w.log circumstances) w1).2.log = w1.log ++ l ∧
        ∃ qs : List (SendCmd × (List Char × Ip)), qs.map Prod.snd = spawns l ∧ (qs.map Prod.fst).Sublist ((sends j.m.did).flatMap chances) ∧ ∀ q ∈ qs, AsAsked hash c q.1 q.2 := by
    intro j' h' hq hsys hdid hpow
    obtain ⟨evs, v, hr, hse, hcl, hal⟩ := C114_at_once hcode h' hq
    have hmem : ∀ e, .server e ∈ evs → e ∈ sevs := fun e he => by
      rw [← hse]
      exact List.mem_filterMap.2 ⟨_, he, rfl⟩
    have := C112_sole_user hA hr hi hf ⟨fun hp hx => ?_, fun hp => ?_, ?_⟩ (fun env cfg senv k hm hk => hsole env cfg senv k (hmem _ hm) hk) c pre circumstances w1
    · rw [asked_sends hcl, hdid, hsys] at this
      exact this
    · have h1 : did .power ∈ (clientEvents evs).map did := List.mem_map_of_mem (List.mem_filterMap.2 ⟨_, hp, rfl⟩)
      rw [hcl] at h1
      obtain ⟨d, hd, e1⟩ := List.mem_map.1 h1
      cases e1
      refine hpow hd ?_
      have h2 : .dirSyncFailed (counterPath cdir) ∈ seen cdir v.log := List.mem_filter.2 ⟨hx, by simp⟩
      rw [← hal.log] at h2
      exact seen_mem h2
    · show _ ∉ j'.sys.w.log
      rw [hsys]
      exact hserver (hmem _ hp)
    · show _ ∉ j'.sys.w.log
      rw [hsys]
      exact hstat
  by_cases hp : .power ∈ j.m.did
  · exact key j h (hclient hp).1 rfl rfl fun _ => (hclient hp).2
  · obtain ⟨_, m', h1, h2, h3, h4⟩ := (jminv_run hcode h).finish (code := code)
    exact key ⟨m', j.sys⟩ (h.silent h1) h2 rfl h3 fun hx => absurd (h3 ▸ hx) hp

/-! ## Every history is possible -/

theorem clockOf_event (job : Job) (env : Env) : clockOf (event job env) = env.clock := by cases job <;> rfl

theorem wire_reseed {A : Aead} {hash : List Char → U64} {dir : Path} {env : Env} {v u : World} {o : Out Unit} (h : runJob A hash dir .reseed (v.withEnv env []) = (o, u)) : ∀ c ∈ wire u.log, c ∈ wire v.log := by
  intro c hc
  obtain ⟨ip, port, bytes, hm⟩ := wire_mem.1 hc
  have h1 : (ip, port, c, bytes) ∈ datagrams u.log := List.mem_filterMap.2 ⟨_, hm, rfl⟩
  rw [reseed_datagrams A hash (show runReseed dir false (v.withEnv env []) = (o, u) from h)] at h1
  exact wire_mem.2 ⟨ip, port, bytes, mem_datagrams h1⟩

/-- **C114**, conversely: every history of the two machines in which the clients' clock is never before `T` is possible with the steps of the machines, so nothing is true for lack of runs. -/
theorem C114_any_history {A : Aead} {hash : List Char → U64} {b : Bond} {cdir sdir : Path} {code : Job → Prog Unit} (hcode : IsCode A hash cdir code) {w v : World} {s0 sys : Sys} {evs : List JEv}
    (h : JRun A hash b cdir sdir ⟨w, s0⟩ evs ⟨v, sys⟩) (hev : ∀ e, .client e ∈ evs → (did e).isSome ∧ ∀ t, some t ∈ clockOf e → b.T ≤ t.toNat) :
    ∃ m, JMRun A b cdir sdir code ⟨Machine.start w, s0⟩ (serverEvents evs) ⟨m, sys⟩ ∧ (∀ p, ¬ (m.proc p).works) ∧ m.did.Sublist ((clientEvents evs).filterMap did) ∧ Alike cdir m.w v := by
  suffices ∃ m, JMRun A b cdir sdir code ⟨Machine.start w, s0⟩ (serverEvents evs) ⟨m, sys⟩ ∧ Resting m ∧ m.did.Sublist ((clientEvents evs).filterMap did) ∧ Alike cdir m.w v by
    obtain ⟨m, h1, h2, h3, h4⟩ := this
    exact ⟨m, h1, fun p hp => by rw [h2.1 p] at hp; exact hp, h3, h4⟩
  have key : ∀ j : Joint, JRun A hash b cdir sdir ⟨w, s0⟩ evs j →
      ∃ m, JMRun A b cdir sdir code ⟨Machine.start w, s0⟩ (serverEvents evs) ⟨m, j.sys⟩ ∧ Resting m ∧ m.did.Sublist ((clientEvents evs).filterMap did) ∧ Alike cdir m.w j.cw := by
    clear h
    intro j h
    induction h with
    | nil => exact ⟨Machine.start w, .nil, ⟨fun _ => rfl, rfl⟩, List.Sublist.refl _, .refl w⟩
    | snoc hr hstep ih =>
      obtain ⟨m, h1, h2, h3, h4⟩ := ih fun e he => hev e (List.mem_append_left _ he)
      cases hstep with
      | server e sys' ha hs =>
        rename_i j evs
        refine ⟨m, ?_, h2, ?_, h4⟩
        · rw [show serverEvents (evs ++ [.server e]) = serverEvents evs ++ [e] by unfold serverEvents; rw [List.filterMap_append]; simp]
          refine .server (j := ⟨m, _⟩) h1 ?_ hs
          exact serverAssumed_mono (cdir := cdir) ha fun x hx => by rw [← h4.log] at hx; exact seen_mem hx
        · unfold clientEvents at h3 ⊢
          rw [List.filterMap_append]
          simpa using h3
      | client e cw' ha hs =>
        rename_i j evs
        have he := hev e (List.mem_append_right _ (List.mem_singleton.2 rfl))
        have hse : serverEvents (evs ++ [.client e]) = serverEvents evs := by
          unfold serverEvents
          rw [List.filterMap_append]
          simp
        have hce : clientEvents (evs ++ [.client e]) = clientEvents evs ++ [e] := by
          unfold clientEvents
          rw [List.filterMap_append]
          simp
        rw [hse, hce, List.filterMap_append]
        have lift : ∀ {P : Machine → Move → Prop} {m'}, RunVia cdir code P m m' → (∀ s a, P s a → MoveAssumed b s a) → JMRun A b cdir sdir code ⟨Machine.start w, s0⟩ (serverEvents evs) ⟨m', j.sys⟩ := by
          intro P m' hv hP
          induction hv with
          | nil => exact h1
          | @snoc s1 s2 a _ hp hst ih => exact .client (j := ⟨s1, j.sys⟩) ih (hP _ _ hp) hst
        have job : ∀ jb env o, e = event jb env → runJob A hash cdir jb (j.cw.withEnv env []) = (o, cw') →
            ∃ m, JMRun A b cdir sdir code ⟨Machine.start w, s0⟩ (serverEvents evs) ⟨m, j.sys⟩ ∧ Resting m ∧ m.did.Sublist ((clientEvents evs).filterMap did ++ [e].filterMap did) ∧ Alike cdir m.w cw' := by
          rintro jb env o rfl hr
          obtain ⟨m', g1, g2, g3, g4⟩ := replay hcode h2 h4 hr
          refine ⟨m', lift g1 ?_, g2, ?_, g4⟩
          · rintro s a ⟨hb, hwk⟩
            cases a with
            | begins p jb' =>
              cases hb p jb' rfl
              cases jb with
              | send cmd senv => exact ⟨ha.1, ha.2.1⟩
              | reseed => exact True.intro
            | works p os ts =>
              obtain ⟨⟨l, hl⟩, hpre, hts⟩ := hwk p os ts rfl
              intro t ht
              refine ⟨he.2 t (by rw [clockOf_event]; exact hts t ht), fun l' hl' c hc => ?_⟩
              rw [hl] at hl'
              have := List.append_inj_right' hl' rfl
              cases this
              obtain ⟨ip, port, bytes, hm⟩ := wire_mem.1 hc
              have : c ∈ wire cw'.log := wire_mem.2 ⟨ip, port, bytes, seen_mem (hpre.subset (seen_udp hm))⟩
              exact (ha t (hts t ht)).2 c (wire_reseed hr c this)
            | _ => exact True.intro
          · rw [show [event jb env].filterMap did = [.job jb] by rw [List.filterMap_cons, did_event]; rfl]
            rcases g3 with g3 | g3 <;> rw [g3]
            · exact h3.append (List.Sublist.refl _)
            · exact h3.trans (List.sublist_append_left _ _)
        cases hs with
        | send env held cmd senv o _ hr =>
          cases held with
          | true => cases he.1
          | false => exact job (.send cmd senv) env o rfl hr
        | reseed env held o _ hr =>
          cases held with
          | true => cases he.1
          | false => exact job .reseed env o rfl hr
        | power _ hpl =>
          obtain ⟨m', g1, g2, g3, g4⟩ := replay_power (code := code) (P := MoveAssumed b) h2 h4 hpl True.intro
          refine ⟨m', lift g1 fun _ _ h => h, g2, ?_, g4⟩
          rw [g3]
          exact h3.append (List.Sublist.refl _)
        | others _ _ _ _ => cases he.1
  exact key _ h

/-- The history of C112 (a server starts, a client sends for both address families, both datagrams arrive and are executed) is one of the machines, however the client is cut into steps, and meets the hypotheses. -/
example (code : Job → Prog Unit) (hcode : IsCode toyAead exHash "/c".toList code) : ∃ m,
    JMRun toyAead exBond "/c".toList "/s".toList code ⟨Machine.start exClient0, ⟨exEmpty, none⟩⟩ [exDualStart, exArrival exBytes4, exArrival exBytes6] ⟨m, exSys3⟩ ∧
    (∃ qs : List (SendCmd × (List Char × Ip)), qs.map Prod.snd = [("ufw allow".toList, .v4 0x08080808), ("ufw allow".toList, .v4 0x08080808)] ∧
      (qs.map Prod.fst).Sublist ((sends m.did).flatMap chances)) := by
  obtain ⟨m, h1, h2, h3, h4⟩ := C114_any_history hcode exJoint_run (fun e he => by
    simp only [exSendEv, List.mem_cons, List.not_mem_nil, or_false, reduceCtorEq, JEv.client.injEq, false_or] at he
    subst he
    refine ⟨rfl, fun t ht => ?_⟩
    have : t = 1763290000000000000 := by
      have := (List.mem_replicate.1 ht).2
      cases this
      rfl
    rw [this]
    decide)
  have hnp : .power ∉ m.did := fun hp => by
    have := h3.subset hp
    simp [clientEvents, exSendEv, did] at this
  refine ⟨m, h1, ?_⟩
  obtain ⟨l, hl, qs, q1, q2, _⟩ := C114_executed_in_order toyAead_correct hcode h1 exJoint_init rfl (fun hp => absurd hp hnp) (by simp [serverEvents, exDualStart, exArrival]) exJoint_covered.stat
    (fun env cfg senv k hm hk => by
      simp only [serverEvents, exDualStart, exSendEv, exArrival, List.filterMap_cons, List.filterMap_nil, List.mem_cons, List.not_mem_nil, or_false, reduceCtorEq, Ev.start.injEq] at hm
      obtain ⟨_, _, rfl⟩ := hm
      exact exDir_sole k hk) exCommander [] [(false, exEnv), (false, exEnv)] (exCmdrWorld [])
  refine ⟨qs, ?_, q2⟩
  rw [q1, ← exInOrder.2.2.1, hl]
  rfl

end Ruroco.AtOnce
