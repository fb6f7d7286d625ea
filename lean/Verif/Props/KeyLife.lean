import Verif.Spec.Delivery
import Verif.Props.Keys
import Verif.Props.Run
import Verif.Props.ServerRate
import Verif.Spec.Terms.KeyLife

/-!
# C64: life of a key — adding and revoking
-/

namespace Ruroco

open Spec (Acceptable Seals RateOk forwards message IsKeyFile keyOf)

theorem LastStart.snoc {evs : List Ev} {dir : Option (List DirEntry)} (h : LastStart evs dir) {e : Ev} (he : e.quiet) : LastStart (evs ++ [e]) dir := by
  obtain ⟨pre, env, cfg, senv, mid, rfl, hd, hm⟩ := h
  refine ⟨pre, env, cfg, senv, mid ++ [e], by simp, hd, ?_⟩
  intro x hx
  rcases List.mem_append.1 hx with h | h
  · exact hm x h
  · simp only [List.mem_singleton] at h
    subst h
    exact he

/-- Forwarded entry `x` comes from a datagram received by a server that found the key sealing it when it was last started. -/
def KeyedSince (A : Aead) (evs : List Ev) (x : List Byte × U128 × List Byte) : Prop :=
  ∃ pre env dg src rd t post dir k d, evs = pre ++ .packet env dg src rd t :: post ∧ LastStart pre dir ∧ 94 ≤ dg.length ∧ x.1 = dg.take 94 ∧ HasKey dir k ∧ k.id = x.1.take 8 ∧
    Seals A k.key x.1 d ∧ x.2.1 = d.counter

theorem KeyedSince.snoc {A : Aead} {evs : List Ev} {x : List Byte × U128 × List Byte} (h : KeyedSince A evs x) (e : Ev) : KeyedSince A (evs ++ [e]) x := by
  obtain ⟨pre, env, dg, src, rd, t, post, dir, k, d, rfl, hr⟩ := h
  exact ⟨pre, env, dg, src, rd, t, post ++ [e], dir, k, d, by simp, hr⟩

theorem run_keyedSince {A : Aead} {dir : Path} {s s' : Sys} {evs : List Ev} (h : Run A dir s evs s') (h0 : s.srv = none) (hlog : forwards s.w.log = []) :
    (∀ srv, s'.srv = some srv → ∃ kd, LastStart evs kd ∧ ∀ id k, srv.handlers.get id = some k → HasKey kd k ∧ k.id = id) ∧ ∀ x ∈ forwards s'.w.log, KeyedSince A evs x := by
  have hlive : ∀ srv, s.srv = some srv → Live false dir s.w srv := fun srv hs => by rw [h0] at hs; cases hs
  induction h with
  | nil => exact ⟨fun srv hs => (by rw [h0] at hs; cases hs), by simp [hlog]⟩
  | snoc hr hst ih =>
    rename_i s2 s3 evs e
    obtain ⟨ih1, ih2⟩ := ih
    have hl := live_run_false hr hlive
    have startLog : ∀ {cfg senv o w' w env}, Created cfg senv (World.withEnv w env []) o w' → forwards w'.log = forwards w.log := by
      intro cfg senv o w' w env h
      obtain ⟨l, hl, hfe⟩ := h.log
      rw [hl, forwards_append, forwards_fileEvents hfe, List.append_nil]; rfl
    have pk : ∀ {w : World} {s : Server} {env : Env} {dg : List Byte} {src : Ip} {rd : Readings} {t : Nat} {o : Option Server} {w' : World},
        e = .packet env dg src rd t → (∃ kd, LastStart evs kd ∧ ∀ id k, s.handlers.get id = some k → HasKey kd k ∧ k.id = id) → (∀ x ∈ forwards w.log, KeyedSince A evs x) →
        PacketCase A s dg src (w.withEnv env (dg.take MSG_SIZE)) o w' →
        (∀ srv, o = some srv → ∃ kd, LastStart (evs ++ [e]) kd ∧ ∀ id k, srv.handlers.get id = some k → HasKey kd k ∧ k.id = id) ∧
          ∀ x ∈ forwards w'.log, KeyedSince A (evs ++ [e]) x := by
      intro w s env dg src rd t o w' he hs hx h
      obtain ⟨kd, hkd, hs⟩ := hs
      have hkd' : LastStart (evs ++ [e]) kd := hkd.snoc (by rw [he]; trivial)
      cases h with
      | nothing s' _ hb hh hc h1 h2 h3 =>
        have e3 : w'.log = w.log := h3
        exact ⟨fun srv hsrv => by cases hsrv; exact ⟨kd, hkd', by rw [hh]; exact hs⟩, by rw [e3]; exact fun x h => (hx x h).snoc e⟩
      | saved now d hclk ha c o ho _ w' hy hsv =>
        refine ⟨fun srv hsrv => ⟨kd, hkd', by rw [(hy srv hsrv).2.1]; exact hs⟩, ?_⟩
        rw [hsv.forwards]; exact fun x h => (hx x h).snoc e
      | acted now d hclk ha c _ w1 w' o hy hsv hsent =>
        refine ⟨fun srv hsrv => ⟨kd, hkd', by rw [(hy srv hsrv).2.1]; exact hs⟩, ?_⟩
        have hf1 : forwards w1.log = forwards w.log := hsv.forwards
        rcases hsent.forwards with h1 | ⟨k, h1⟩
        · rw [h1, hf1]; exact fun x h => (hx x h).snoc e
        · rw [h1, hf1, show w1.cur = dg.take MSG_SIZE from hsv.cur]
          intro x hmem
          rcases List.mem_append.1 hmem with h | h
          · exact (hx x h).snoc e
          · simp only [List.mem_singleton] at h; subst h
            obtain ⟨hh, hg, hse⟩ := ha.sealed
            have e8 : (dg.take MSG_SIZE).take 8 = dg.take 8 := by simp [MSG_SIZE, List.take_take]
            refine ⟨evs, env, dg, src, rd, t, [], kd, hh, d, by rw [he], hkd, ha.size, rfl, (hs _ _ hg).1, ?_, (seals_take _ _ _ _).2 hse, rfl⟩
            simp only [e8]
            exact (hs _ _ hg).2
    cases hst with
    | started w env cfg senv s w' hdir hord h =>
      have hc := created_of_step hord h
      refine ⟨fun srv hs => ?_, ?_⟩
      · cases hs
        obtain ⟨es, h1, _, _, h2⟩ := C24_usable_keys cfg senv hord _ _ _ h
        refine ⟨senv.dir, ⟨evs, env, cfg, senv, [], rfl, rfl, by simp⟩, fun id k hg => ?_⟩
        obtain ⟨e, he, hk, hko, hid⟩ := (h2 id k).1 hg
        exact ⟨⟨es, h1, e, he, hk, hko⟩, hid⟩
      · rw [startLog hc]; exact fun x h => (ih2 x h).snoc _
    | startFailed w env cfg senv o w' hdir hord h hne =>
      have hc := created_of_step hord h
      exact ⟨fun srv hs => (by cases hs), by rw [startLog hc]; exact fun x h => (ih2 x h).snoc _⟩
    | packet w s env dg src rd tLog s' r w' h => exact pk rfl (ih1 s rfl) ih2 (packetCase_of_step (hl _ rfl).wf h)
    | packetCrash w s env dg src rd tLog w' h => exact pk rfl (ih1 s rfl) ih2 (packetCase_of_step (hl _ rfl).wf h)
    | kill w s => exact ⟨fun srv hs => (by cases hs), fun x h => (ih2 x h).snoc _⟩
    | power w s w' h => exact ⟨fun srv hs => (by cases hs), by simp only [h.log]; exact fun x h => (ih2 x h).snoc _⟩
    | others w w' s hfs hpend hlog =>
      refine ⟨fun srv hs => ?_, by simp only [hlog]; exact fun x h => (ih2 x h).snoc _⟩
      obtain ⟨kd, h1, h2⟩ := ih1 srv hs
      exact ⟨kd, h1.snoc trivial, h2⟩

/-- **C64a.** In every history (starts with changing sets of key files, failing calls, crashes, power losses, arbitrary datagrams): whatever is forwarded stems from a datagram that
was received by a server whose *last start* found a key file with exactly the key that seals the datagram, under the id the datagram names. -/
theorem C64_only_keys_of_last_start (A : Aead) (dir : Path) (w : World) (evs : List Ev) (s : Sys) (h : Run A dir ⟨w, none⟩ evs s) (hlog : forwards w.log = []) (dg : List Byte) (c : U128)
    (bs : List Byte) (hf : (dg, c, bs) ∈ forwards s.w.log) :
    ∃ pre env full src rd t post keyDir k d, evs = pre ++ .packet env full src rd t :: post ∧ LastStart pre keyDir ∧ dg = full.take 94 ∧ HasKey keyDir k ∧ k.id = dg.take 8 ∧
      Seals A k.key dg d ∧ c = d.counter := by
  obtain ⟨pre, env, full, src, rd, t, post, kd, k, d, h1, h2, _, h4, h5, h6, h7, h8⟩ := (run_keyedSince h rfl hlog).2 _ hf
  exact ⟨pre, env, full, src, rd, t, post, kd, k, d, h1, h2, h4, h5, h6, h7, h8⟩

/-- **C64b**, revocation. After its key files were deleted and the server was stopped, a key is dead: in every later history in which no start finds a key with that id, nothing sent under
that id is acted on, whatever the replay state says. -/
theorem C64_revoked_key_is_dead (A : Aead) (dir : Path) (w : World) (evs : List Ev) (s : Sys) (h : Run A dir ⟨w, none⟩ evs s) (hlog : forwards w.log = []) (id : List Byte)
    (hrev : ∀ env cfg senv, .start env cfg senv ∈ evs → ∀ k, HasKey senv.dir k → k.id ≠ id) (dg : List Byte) (c : U128) (bs : List Byte) (hf : (dg, c, bs) ∈ forwards s.w.log) :
    dg.take 8 ≠ id := by
  obtain ⟨pre, env, full, src, rd, t, post, kd, k, d, rfl, ⟨p, e, cfg, senv, mid, rfl, rfl, _⟩, _, h5, h6, _⟩ := C64_only_keys_of_last_start A dir w evs s h hlog dg c bs hf
  rw [← h6]
  exact hrev e cfg senv (by simp) k h5

/-! ## C65: clients with different keys do not disturb each other -/

/-- What one datagram does when calls work and the limiter lets it pass. -/
theorem arrival_cases (A : Aead) (s : Server) (hb : s.bl.Wf) (hlen : s.bl.map.length < 2 ^ 32) (w : World) (a : Arrival) :
    ∃ s' r w', s.handleDatagram A a.dg a.src a.rd a.tLog (w.withEnv ⟨[], [some a.now, some a.saveTime]⟩ (a.dg.take MSG_SIZE)) = (.ok (s', r), w') ∧
      s'.bl.Wf ∧ s'.bl.map.length < 2 ^ 32 ∧ s'.cfg = s.cfg ∧ s'.handlers = s.handlers ∧
      (r ≠ .error .rateIp → r ≠ .error .rateGlobal →
        (∀ d, Acceptable A s a.now.toNat a.src a.dg d → s'.bl = s.bl.upsert (a.dg.take 8) d.counter ∧
          forwards w'.log = forwards w.log ++ [(a.dg.take 94, d.counter, message d (normalizeIp a.src))]) ∧
        ((∀ d, ¬ Acceptable A s a.now.toNat a.src a.dg d) → s'.bl = s.bl ∧ forwards w'.log = forwards w.log)) := by
  generalize hw0 : w.withEnv ⟨[], [some a.now, some a.saveTime]⟩ (a.dg.take MSG_SIZE) = w0
  obtain ⟨s', r, w', he, hb'⟩ := handleDatagram_ok (A := A) (s := s) hb (dg := a.dg) (src := a.src) (rd := a.rd) (tl := a.tLog) (w := w0) (by subst hw0; intro k h; cases h)
  have hlog : forwards w.log = forwards w0.log := by subst hw0; rfl
  have hcur : w0.cur = a.dg.take 94 := by subst hw0; rfl
  have hclk : w0.clock = [some a.now, some a.saveTime] := by subst hw0; rfl
  have hall : AllOk w0 := by subst hw0; intro c hc; cases hc
  have hacc := handleDatagram_accounted A s s' ⟨a.dg, a.src, 0, a.rd, a.tLog, r⟩ w0 w' he
  rcases hi : s.iteration A a.dg a.src a.rd w0 with ⟨o, w1⟩
  have hit : ∃ s1 t, o = .ok (s1, r) ∧ s' = { s1 with throttle := t } ∧ w' = w1 := by
    unfold Server.handleDatagram at he
    simp only [bind, Act.bind, hi] at he
    cases o with
    | err e => cases he
    | crash => cases he
    | ok x =>
      obtain ⟨s1, r1⟩ := x
      cases r1 with
      | error e => cases he; exact ⟨s1, _, rfl, rfl, rfl⟩
      | ok u => cases he; exact ⟨s1, s1.throttle, rfl, rfl, rfl⟩
  obtain ⟨s1, th, rfl, rfl, rfl⟩ := hit
  have hh := iteration_handled A s hb a.dg a.src a.rd w0
  unfold wp at hh
  rw [hi] at hh
  have hc15 := C15_forwards_iff_acceptable A s hb hlen a.dg a.src a.rd w0 w' _ hall a.now a.saveTime [] hclk hi
  have hframe : s1.cfg = s.cfg ∧ s1.handlers = s.handlers ∧ (s1.bl = s.bl ∨ ∃ d now, Acceptable A s now a.src a.dg d ∧ s1.bl = s.bl.upsert (a.dg.take 8) d.counter) := by
    generalize ho : Out.ok (s1, r) = oo at hh
    cases hh with
    | rejected e rl c => cases ho; exact ⟨rfl, rfl, Or.inl rfl⟩
    | saveFailed rl now c d e w' ha hs => cases ho; exact ⟨rfl, rfl, Or.inl rfl⟩
    | saveCrashed rl now c d w' ha hs => cases ho
    | acted rl now c d w1 w' ha hs hf => cases ho; exact ⟨rfl, rfl, Or.inr ⟨d, _, ha.acc, rfl⟩⟩
    | sendCrashed rl now c d w1 w' ha hs hf => cases ho
  have hrate : r ≠ .error .rateIp → r ≠ .error .rateGlobal → 94 ≤ a.dg.length → ∃ rl, RateOk s a.src a.rd rl := by
    intro h1 h2 hl
    have hck := (hacc.checked hl).2
    simp only at hck
    rcases C21_no_other_refusal s.rl s.cfg.maxPerIp s.cfg.maxGlobal (normalizeIp a.src) a.rd with h | h | h
    · exact ⟨_, Prod.ext h rfl⟩
    · exact absurd (hck _ h) h1
    · exact absurd (hck _ h) h2
  refine ⟨_, r, w', he, hb', ?_, hframe.1, hframe.2.1, ?_⟩
  · show s1.bl.map.length < 2 ^ 32
    rcases hframe.2.2 with h | ⟨d, now, ha, h⟩
    · rw [h]; exact hlen
    · obtain ⟨v, hv, _⟩ := ha.fresh
      rw [h]
      show (s.bl.map.insert _ _).length < _
      rw [BlMap.length_insert hv]; exact hlen
  · intro h1 h2
    refine ⟨fun d ha => ?_, fun hn => ?_⟩
    · obtain ⟨rl, hrl⟩ := hrate h1 h2 ha.size
      obtain ⟨e1, e2⟩ := hc15.2 rl d hrl ha
      cases e1
      rw [hlog, ← hcur]
      exact ⟨rfl, e2⟩
    · refine ⟨?_, ?_⟩
      · generalize ho : Out.ok (s1, r) = oo at hh
        cases hh with
        | rejected e rl c => cases ho; rfl
        | saveFailed rl now c d e w' ha hs => cases ho; rfl
        | saveCrashed rl now c d w' ha hs => cases ho
        | acted rl now c d w1 w' ha hs hf =>
          cases ho
          have := ha.clock
          rw [hclk] at this
          cases this
          exact absurd ha.acc (hn d)
        | sendCrashed rl now c d w1 w' ha hs hf => cases ho
      · rw [hlog]
        refine Classical.byContradiction fun hne => ?_
        obtain ⟨_, d, ha⟩ := hc15.1.1 hne
        exact hn d ha

/-- `Acceptable` looks at nothing but the configuration and what is stored under the id the datagram names. -/
theorem acceptable_local {A : Aead} {s1 s2 : Server} {now : Nat} {src : Ip} {dg : List Byte} {d : ClientData} (hc : s1.cfg = s2.cfg)
    (hk : s1.handlers.get (dg.take 8) = s2.handlers.get (dg.take 8)) (hm : s1.bl.map.get (dg.take 8) = s2.bl.map.get (dg.take 8)) (h : Acceptable A s1 now src dg d) :
    Acceptable A s2 now src dg d := by
  refine ⟨h.size, ?_, ?_, ?_, ?_, h.src⟩
  · rw [← hk]; exact h.sealed
  · rw [← hm]; exact h.fresh
  · rw [← hc]; exact h.notFuture
  · rw [← hc]; exact h.dst

/-- **C65.** Take any sequence of datagrams (system calls working, nothing refused by the limiter). What the server does with the datagrams naming the key `id` is the same as if only those
had been sent, and the same as on a server with any other set of further keys, in any state: same commands forwarded, in the same order, and the same stored counter at the end. -/
theorem C65_keys_do_not_interfere (A : Aead) (id : List Byte) (as : List Arrival) (s1 s2 : Server) (w1 w2 : World) (hb1 : s1.bl.Wf) (hb2 : s2.bl.Wf)
    (hl1 : s1.bl.map.length < 2 ^ 32) (hl2 : s2.bl.map.length < 2 ^ 32) (hcfg : s1.cfg = s2.cfg) (hkey : s1.handlers.get id = s2.handlers.get id)
    (hctr : s1.bl.map.get id = s2.bl.map.get id) (hr1 : NotLimited (deliver A s1 w1 as).2.2) (hr2 : NotLimited (deliver A s2 w2 (as.filter (Arrival.named id))).2.2) :
    ∃ l1 l2, forwards (deliver A s1 w1 as).2.1.log = forwards w1.log ++ l1 ∧ forwards (deliver A s2 w2 (as.filter (Arrival.named id))).2.1.log = forwards w2.log ++ l2 ∧
      l1.filter (fun x => x.1.take 8 == id) = l2 ∧ (deliver A s1 w1 as).1.bl.map.get id = (deliver A s2 w2 (as.filter (Arrival.named id))).1.bl.map.get id := by
  induction as generalizing s1 s2 w1 w2 with
  | nil => exact ⟨[], [], by simp [deliver], by simp [deliver], rfl, hctr⟩
  | cons a as ih =>
    obtain ⟨s1', r1, w1', e1, b1, n1, c1, k1, q1⟩ := arrival_cases A s1 hb1 hl1 w1 a
    have d1 : deliver A s1 w1 (a :: as) = ((deliver A s1' w1' as).1, (deliver A s1' w1' as).2.1, r1 :: (deliver A s1' w1' as).2.2) := by simp only [deliver, e1]
    rw [d1] at hr1 ⊢
    have hr1' : NotLimited (deliver A s1' w1' as).2.2 := ⟨fun h => hr1.1 (by simp [h]), fun h => hr1.2 (by simp [h])⟩
    obtain ⟨a1, a2⟩ := q1 (fun h => hr1.1 (by simp [h])) (fun h => hr1.2 (by simp [h]))
    cases hn : a.named id with
    | false =>
      rw [List.filter_cons_of_neg (by simp [hn])] at hr2 ⊢
      have hne : a.dg.take 8 ≠ id := by simpa [Arrival.named] using hn
      have hmap : s1'.bl.map.get id = s2.bl.map.get id ∧ ∃ l, forwards w1'.log = forwards w1.log ++ l ∧ l.filter (fun x => x.1.take 8 == id) = [] := by
        by_cases hd : ∃ d, Acceptable A s1 a.now.toNat a.src a.dg d
        · obtain ⟨d, hd⟩ := hd
          obtain ⟨h1, h2⟩ := a1 d hd
          refine ⟨?_, _, h2, ?_⟩
          · rw [h1, ← hctr]
            show (s1.bl.map.insert _ _).get id = _
            rw [BlMap.get_insert, if_neg (by simp [Ne.symm hne])]
          · have e8 : (a.dg.take 94).take 8 = a.dg.take 8 := by simp [List.take_take]
            simp [e8, hne]
        · obtain ⟨h1, h2⟩ := a2 (fun d h => hd ⟨d, h⟩)
          exact ⟨by rw [h1, hctr], [], by simp [h2], rfl⟩
      obtain ⟨hm, l, hlf, hle⟩ := hmap
      obtain ⟨l1, l2, g1, g2, g3, g4⟩ := ih s1' s2 w1' w2 b1 hb2 n1 hl2 (by rw [c1, hcfg]) (by rw [k1, hkey]) hm hr1' hr2
      exact ⟨l ++ l1, l2, by rw [g1, hlf, List.append_assoc], g2, by rw [List.filter_append, hle, List.nil_append]; exact g3, g4⟩
    | true =>
      rw [List.filter_cons_of_pos (by simp [hn])] at hr2 ⊢
      have heq : a.dg.take 8 = id := by simpa [Arrival.named] using hn
      obtain ⟨s2', r2, w2', e2, b2, n2, c2, k2, q2⟩ := arrival_cases A s2 hb2 hl2 w2 a
      have d2 : deliver A s2 w2 (a :: as.filter (Arrival.named id)) = ((deliver A s2' w2' (as.filter (Arrival.named id))).1, (deliver A s2' w2' (as.filter (Arrival.named id))).2.1,
          r2 :: (deliver A s2' w2' (as.filter (Arrival.named id))).2.2) := by simp only [deliver, e2]
      rw [d2] at hr2 ⊢
      have hr2' : NotLimited (deliver A s2' w2' (as.filter (Arrival.named id))).2.2 := ⟨fun h => hr2.1 (by simp [h]), fun h => hr2.2 (by simp [h])⟩
      obtain ⟨z1, z2⟩ := q2 (fun h => hr2.1 (by simp [h])) (fun h => hr2.2 (by simp [h]))
      have loc12 : ∀ d, Acceptable A s1 a.now.toNat a.src a.dg d → Acceptable A s2 a.now.toNat a.src a.dg d := fun d h => acceptable_local hcfg (by rw [heq, hkey]) (by rw [heq, hctr]) h
      have loc21 : ∀ d, Acceptable A s2 a.now.toNat a.src a.dg d → Acceptable A s1 a.now.toNat a.src a.dg d :=
        fun d h => acceptable_local hcfg.symm (by rw [heq, hkey]) (by rw [heq, hctr]) h
      have hmap : s1'.bl.map.get id = s2'.bl.map.get id ∧ ∃ l, forwards w1'.log = forwards w1.log ++ l ∧ forwards w2'.log = forwards w2.log ++ l ∧
          l.filter (fun x => x.1.take 8 == id) = l := by
        by_cases hd : ∃ d, Acceptable A s1 a.now.toNat a.src a.dg d
        · obtain ⟨d, hd⟩ := hd
          obtain ⟨h1, h2⟩ := a1 d hd
          obtain ⟨h3, h4⟩ := z1 d (loc12 d hd)
          refine ⟨?_, _, h2, h4, ?_⟩
          · rw [h1, h3, heq]
            show (s1.bl.map.insert _ _).get id = (s2.bl.map.insert _ _).get id
            rw [BlMap.get_insert, BlMap.get_insert, if_pos rfl, if_pos rfl]
          · have e8 : (a.dg.take 94).take 8 = a.dg.take 8 := by simp [List.take_take]
            simp [e8, heq]
        · obtain ⟨h1, h2⟩ := a2 (fun d h => hd ⟨d, h⟩)
          obtain ⟨h3, h4⟩ := z2 (fun d h => hd ⟨d, loc21 d h⟩)
          exact ⟨by rw [h1, h3, hctr], [], by simp [h2], by simp [h4], rfl⟩
      obtain ⟨hm, l, hlf, hlf2, hle⟩ := hmap
      obtain ⟨l1, l2, g1, g2, g3, g4⟩ := ih s1' s2' w1' w2' b1 b2 n1 n2 (by rw [c1, c2, hcfg]) (by rw [k1, k2, hkey]) hm hr1' hr2'
      exact ⟨l ++ l1, l ++ l2, by rw [g1, hlf, List.append_assoc], by rw [g2, hlf2, List.append_assoc], by rw [List.filter_append, hle, g3], g4⟩

/-! ## Examples -/

/-- A second key. -/
def exSecondKey : CryptoHandler := ⟨List.replicate 32 9, List.replicate 8 6⟩

def exSecondText : List Char := match genKey (some exSecondKey.key) (some exSecondKey.id) with
  | .ok t => t
  | .error _ => []

/-- A datagram with counter `c` sealed under the second key. -/
def exSecondSealed (c : U128) : List Byte :=
  exSecondKey.id ++ List.replicate 12 3 ++ (toyAead.enc exSecondKey.key (List.replicate 12 3) { exRequest with counter := c }.serialize).1 ++ { exRequest with counter := c }.serialize

def exStartDir (t : U128) (dir : List DirEntry) : Ev := .start ⟨[], [some t, some t, some t]⟩ { exServer.cfg with maxPerIp := 10 } ⟨some dir, id, true, 0⟩

def exSecondPacket (c now : U128) : Ev := .packet ⟨[], [some now, some now]⟩ (exSecondSealed c) (.v4 0x0a000001) exReadings 0

/-- Rotation: the second key is added beside the first, then the first is deleted. Both work while both are there; afterwards the first is dead. -/
def exRotation : List Ev :=
  [exStart 1000 [], exPacket 5000 1100 [], .kill, exStartDir 2000 [⟨"a.key".toList, true, some exKeyText⟩, ⟨"b.key".toList, true, some exSecondText⟩], exPacket 6000 2100 [],
   exSecondPacket 5500 2200, .kill, exStartDir 3000 [⟨"b.key".toList, true, some exSecondText⟩], exPacket 7000 3100 [], exSecondPacket 7000 3200]

example : Run toyAead "/s".toList ⟨exEmpty, none⟩ exRotation (exRotation.foldl (exec toyAead) ⟨exEmpty, none⟩) ∧
    (forwards (exRotation.foldl (exec toyAead) ⟨exEmpty, none⟩).w.log).map (fun x => (x.1.take 8 == exKey.id, x.2.1)) = [(true, 5000), (true, 6000), (false, 5500), (false, 7000)] := by
  refine ⟨?_, by decide +kernel⟩
  apply run_exec
  refine ⟨⟨rfl, rfl⟩, ?_, trivial, ⟨?_, ?_⟩, ?_, ?_, trivial, ⟨?_, ?_⟩, ?_, ?_, trivial⟩ <;> first | rfl | decide +kernel

/-- Non-vacuity of C64b: its hypothesis holds of the last part of that history for the first key. -/
example : ∀ env cfg senv, .start env cfg senv ∈ exRotation.drop 7 → ∀ k, HasKey senv.dir k → k.id ≠ exKey.id := by
  intro env cfg senv h k hk
  have h : Ev.start env cfg senv ∈ [exStartDir 3000 [⟨"b.key".toList, true, some exSecondText⟩], exPacket 7000 3100 [], exSecondPacket 7000 3200] := h
  simp [exStartDir, exPacket, exSecondPacket] at h
  obtain ⟨rfl, rfl, rfl⟩ := h
  obtain ⟨es, he, e, hm, _, hk⟩ := hk
  cases he
  simp only [List.mem_singleton] at hm
  subst hm
  have : keyOf ⟨"b.key".toList, true, some exSecondText⟩ = some exSecondKey := by decide +kernel
  cases this.symm.trans hk
  decide +kernel

/-- A server with both keys, and four datagrams: two of each key, the second of the first key being a replay. -/
def exTwoKeys : Server := { exServer with
  cfg := { exServer.cfg with maxPerIp := 10 }, handlers := [(exKey.id, exKey), (exSecondKey.id, exSecondKey)],
  bl := { map := [(exKey.id, 4000), (exSecondKey.id, 4100)], path := blocklistPath "/s".toList, order := id } }

def exIncoming (dg : List Byte) : Arrival := ⟨dg, .v4 0x0a000001, exReadings, 0, 1100, 1100⟩

def exIncomings : List Arrival := [exIncoming (exSealed 5000), exIncoming (exSecondSealed 4500), exIncoming (exSealed 5000), exIncoming (exSecondSealed 6000)]

example : (forwards (deliver toyAead exTwoKeys exEmpty exIncomings).2.1.log).map (fun x => (x.1.take 8 == exKey.id, x.2.1)) = [(true, 5000), (false, 4500), (false, 6000)] ∧
    (forwards (deliver toyAead exTwoKeys exEmpty (exIncomings.filter (Arrival.named exKey.id))).2.1.log).map (fun x => x.2.1) = [5000] ∧
    NotLimited (deliver toyAead exTwoKeys exEmpty exIncomings).2.2 ∧ NotLimited (deliver toyAead exTwoKeys exEmpty (exIncomings.filter (Arrival.named exKey.id))).2.2 := by
  have h1 : (deliver toyAead exTwoKeys exEmpty exIncomings).2.2 = [.ok (), .ok (), .error .replayed, .ok ()] := by decide +kernel
  have h2 : (deliver toyAead exTwoKeys exEmpty (exIncomings.filter (Arrival.named exKey.id))).2.2 = [.ok (), .error .replayed] := by decide +kernel
  refine ⟨by decide +kernel, by decide +kernel, ?_, ?_⟩
  · rw [h1]; constructor <;> decide
  · rw [h2]; constructor <;> decide

end Ruroco
