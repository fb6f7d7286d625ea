import Verif.Props.Config
import Verif.Props.KeyLife
import Verif.Props.EndToEnd
import Verif.Spec.Terms.Installation

/-!
# C79, C80: a whole installation — from config.toml, commands.toml and the key files to the commands executed
-/

namespace Ruroco

open Spec (Acceptable Seals RateOk forwards message IsKeyFile keyOf SameHost NonRoutable spawns commandText onDisk request commandFor lookup DistinctKeys IsCommand ServerSettings CommanderSettings)

theorem StartedWith.snoc {evs : List Ev} {cfg : ServerCfg} {dir : Option (List DirEntry)} (h : StartedWith evs cfg dir) {e : Ev} (he : e.quiet) : StartedWith (evs ++ [e]) cfg dir := by
  obtain ⟨pre, env, senv, mid, rfl, hd, hm⟩ := h
  refine ⟨pre, env, senv, mid ++ [e], by simp, hd, ?_⟩
  intro x hx
  rcases List.mem_append.1 hx with h | h
  · exact hm x h
  · simp only [List.mem_singleton] at h
    subst h
    exact he

/-- The forwarded entry `x` traced back to an event of the history. -/
def Traced (A : Aead) (evs : List Ev) (x : List Byte × U128 × List Byte) : Prop :=
  ∃ pre env dg src rd t post cfg dir d n, evs = pre ++ .packet env dg src rd t :: post ∧ StartedWith pre cfg dir ∧ Legitimate A cfg dir env.clock dg src d ∧
    x = (dg.take 94, d.counter, (message d (normalizeIp src)).take n)

theorem Traced.snoc {A : Aead} {evs : List Ev} {x : List Byte × U128 × List Byte} (h : Traced A evs x) (e : Ev) : Traced A (evs ++ [e]) x := by
  obtain ⟨pre, env, dg, src, rd, t, post, cfg, dir, d, n, rfl, hr⟩ := h
  exact ⟨pre, env, dg, src, rd, t, post ++ [e], cfg, dir, d, n, by simp, hr⟩

/-- What a running server is known to have been started with. -/
def KnownStart (evs : List Ev) (srv : Server) : Prop :=
  ∃ kd, StartedWith evs srv.cfg kd ∧ ∀ id k, srv.handlers.get id = some k → HasKey kd k ∧ k.id = id

theorem KnownStart.snoc {evs : List Ev} {s s' : Server} (h : KnownStart evs s) (hh : s'.handlers = s.handlers) (hc : s'.cfg = s.cfg) {e : Ev} (he : e.quiet) : KnownStart (evs ++ [e]) s' := by
  obtain ⟨kd, h1, h2⟩ := h
  exact ⟨kd, hc ▸ h1.snoc he, hh ▸ h2⟩

theorem traced_packet {A : Aead} {evs : List Ev} {w : World} {s : Server} {env : Env} {dg : List Byte} {src : Ip} {rd : Readings} {t : Nat} {o : Option Server} {w' : World}
    (hs : KnownStart evs s) (hx : ∀ x ∈ forwards w.log, Traced A evs x) (h : PacketCase A s dg src (w.withEnv env (dg.take MSG_SIZE)) o w') :
    (∀ srv, o = some srv → KnownStart (evs ++ [.packet env dg src rd t]) srv) ∧ ∀ x ∈ forwards w'.log, Traced A (evs ++ [.packet env dg src rd t]) x := by
  cases h with
  | nothing s' _ hb hh hc h1 h2 h3 =>
    have e3 : w'.log = w.log := h3
    exact ⟨fun srv hsrv => by cases hsrv; exact hs.snoc hh hc trivial, by rw [e3]; exact fun x h => (hx x h).snoc _⟩
  | saved now d hclk ha c o ho _ w' hy hsv =>
    refine ⟨fun srv hsrv => hs.snoc (hy srv hsrv).2.1 (hy srv hsrv).2.2.1 trivial, ?_⟩
    rw [hsv.forwards]; exact fun x h => (hx x h).snoc _
  | acted now d hclk ha c _ w1 w' o hy hsv hsent =>
    refine ⟨fun srv hsrv => hs.snoc (hy srv hsrv).2.1 (hy srv hsrv).2.2 trivial, ?_⟩
    have hf1 : forwards w1.log = forwards w.log := hsv.forwards
    have hlog := hsent.log
    rcases hsent.forwards with h1 | ⟨n, h1⟩
    · rw [h1, hf1]; exact fun x h => (hx x h).snoc _
    · rw [h1, hf1, show w1.cur = dg.take MSG_SIZE from hsv.cur]
      intro x hmem
      rcases List.mem_append.1 hmem with h | h
      · exact (hx x h).snoc _
      · simp only [List.mem_singleton] at h; subst h
        obtain ⟨hh, hg, hse⟩ := ha.sealed
        obtain ⟨kd, hkd, hk⟩ := hs
        exact ⟨evs, env, dg, src, rd, t, [], s.cfg, kd, d, n, rfl, hkd, ⟨ha.size, ⟨hh, (hk _ _ hg).1, (hk _ _ hg).2, hse⟩, ⟨now, hclk, ha.notFuture⟩, ha.dst, ha.src⟩, rfl⟩

theorem run_traced {A : Aead} {dir : Path} {s s' : Sys} {evs : List Ev} (h : Run A dir s evs s') (h0 : s.srv = none) (hlog : forwards s.w.log = []) :
    (∀ srv, s'.srv = some srv → KnownStart evs srv) ∧ ∀ x ∈ forwards s'.w.log, Traced A evs x := by
  have hlive : ∀ srv, s.srv = some srv → Live false dir s.w srv := fun srv hs => by rw [h0] at hs; cases hs
  induction h with
  | nil => exact ⟨fun srv hs => (by rw [h0] at hs; cases hs), by simp [hlog]⟩
  | snoc hr hst ih =>
    rename_i s2 s3 evs e
    obtain ⟨ih1, ih2⟩ := ih
    have hl := live_run_false hr hlive
    have startLog : ∀ {cfg senv o w' w env}, Created cfg senv (World.withEnv w env []) o w' → forwards w'.log = forwards w.log := by
      intro cfg senv o w' w env h
      obtain ⟨l, hl, hfe⟩ := h.log
      rw [hl, forwards_append, forwards_fileEvents hfe, List.append_nil]; rfl
    cases hst with
    | started w env cfg senv s w' hdir hord h =>
      have hc := created_of_step hord h
      refine ⟨fun srv hs => ?_, ?_⟩
      · cases hs
        obtain ⟨es, h1, _, _, h2⟩ := C24_usable_keys cfg senv hord _ _ _ h
        refine ⟨senv.dir, ⟨evs, env, senv, [], by rw [(hc.ok _ rfl).1], rfl, by simp⟩, fun id k hg => ?_⟩
        obtain ⟨e, he, hk, hko, hid⟩ := (h2 id k).1 hg
        exact ⟨⟨es, h1, e, he, hk, hko⟩, hid⟩
      · rw [startLog hc]; exact fun x h => (ih2 x h).snoc _
    | startFailed w env cfg senv o w' hdir hord h hne =>
      have hc := created_of_step hord h
      exact ⟨fun srv hs => (by cases hs), by rw [startLog hc]; exact fun x h => (ih2 x h).snoc _⟩
    | packet w s env dg src rd tLog s' r w' h => exact traced_packet (ih1 s rfl) ih2 (packetCase_of_step (hl _ rfl).wf h)
    | packetCrash w s env dg src rd tLog w' h => exact traced_packet (ih1 s rfl) ih2 (packetCase_of_step (hl _ rfl).wf h)
    | kill w s => exact ⟨fun srv hs => (by cases hs), fun x h => (ih2 x h).snoc _⟩
    | power w s w' h => exact ⟨fun srv hs => (by cases hs), by simp only [h.log]; exact fun x h => (ih2 x h).snoc _⟩
    | others w w' s hfs hpend hlog => exact ⟨fun srv hs => (ih1 srv hs).snoc rfl rfl trivial, by simp only [hlog]; exact fun x h => (ih2 x h).snoc _⟩

/-- A sublist of what `f` picks, with the elements it was picked from. -/
theorem sublist_filterMap {f : α → Option β} {l : List α} {ys : List β} (h : ys.Sublist (l.filterMap f)) : ∃ xs : List α, xs.Sublist l ∧ xs.map f = ys.map some := by
  induction l generalizing ys with
  | nil => cases h; exact ⟨[], .slnil, rfl⟩
  | cons a l ih =>
    cases hf : f a with
    | none =>
      rw [List.filterMap_cons_none hf] at h
      obtain ⟨xs, h1, h2⟩ := ih h
      exact ⟨xs, h1.cons a, h2⟩
    | some b =>
      rw [List.filterMap_cons_some hf] at h
      cases h with
      | cons _ h =>
        obtain ⟨xs, h1, h2⟩ := ih h
        exact ⟨xs, h1.cons a, h2⟩
      | cons_cons _ h =>
        obtain ⟨xs, h1, h2⟩ := ih h
        exact ⟨a :: xs, h1.cons_cons a, by simp [hf, h2]⟩

/-- Fewer than 24 bytes ask for nothing; otherwise the message is complete. -/
theorem request_message {d : ClientData} {src : Ip} {n : Nat} {tf : Bool} {env : ChildEnv} {h : U64} {ip : Ip}
    (hr : request (.stream tf ((message d (normalizeIp src)).take n) env) = some (h, ip)) : h = d.cmdHash ∧ SameHost ip (d.srcIp.getD src) := by
  unfold request at hr
  simp only at hr
  split at hr
  · cases hr
  · rename_i hc
    have hlen : (message d (normalizeIp src)).length = 24 := toBytes_length _
    have hn : (message d (normalizeIp src)).take n = message d (normalizeIp src) := by
      apply List.take_of_length_le
      have : ¬ (List.take n (message d (normalizeIp src))).length < 24 := fun h => hc (.inr h)
      rw [List.length_take] at this
      omega
    rw [hn] at hr
    unfold message CommanderData.toBytes at hr
    simp only at hr
    rw [List.take_append_of_le_length (by simp), List.take_of_length_le (by simp), U64_ofBE_beBytes, List.drop_append_of_le_length (by simp),
      List.drop_eq_nil_of_le (by simp), List.nil_append, List.take_of_length_le (by simp), deserializeIp_serializeIp] at hr
    cases hr
    refine ⟨rfl, ?_⟩
    rw [← normalizeIp_eq_iff_sameHost, (C06_normalize_idempotent _).1]
    cases d.srcIp with
    | none => exact (C06_normalize_idempotent src).1
    | some _ => rfl

theorem map_fst_zip_sublist (l : List α) (ks : List γ) : ((l.zip ks).map Prod.fst).Sublist l := by
  induction l generalizing ks with
  | nil => exact .slnil
  | cons a l ih =>
    cases ks with
    | nil => exact List.nil_sublist _
    | cons k ks => exact (ih ks).cons_cons a

theorem sublist_of_zipWith {g : α → γ → δ} {f : δ → Option β} {l : List α} {ks : List γ} {ys : List β} (h : ys.Sublist ((List.zipWith g l ks).filterMap f)) :
    ∃ xs : List α, xs.Sublist l ∧ xs.length = ys.length ∧ ∀ p ∈ xs.zip ys, p.1 ∈ l ∧ ∃ k, f (g p.1 k) = some p.2 := by
  have e : List.zipWith g l ks = (l.zip ks).map (fun p => g p.1 p.2) := by rw [List.zip, List.map_zipWith]
  rw [e, List.filterMap_map] at h
  obtain ⟨ps, h1, h2⟩ := sublist_filterMap h
  have hlen : ps.length = ys.length := by simpa using congrArg List.length h2
  refine ⟨ps.map Prod.fst, ?_, by simpa using hlen, ?_⟩
  · have h3 := h1.map Prod.fst
    exact h3.trans (map_fst_zip_sublist l ks)
  · intro p hp
    obtain ⟨i, hi, rfl⟩ := List.mem_iff_getElem.1 hp
    simp only [List.length_zip, List.length_map] at hi
    have hi1 : i < ps.length := by omega
    have hi2 : i < ys.length := by omega
    simp only [List.getElem_zip, List.getElem_map]
    refine ⟨(List.of_mem_zip (h1.subset (List.getElem_mem hi1))).1, ps[i].2, ?_⟩
    have := congrArg (fun l => l[i]?) h2
    simp only [List.getElem?_map, List.getElem?_eq_getElem hi1, List.getElem?_eq_getElem hi2, Option.map_some, Option.some.injEq] at this
    exact this

/-- **C79.** An installation: config.toml (`t`) and commands.toml (`k`, with table `entries`) as read by server and commander, key files that may change between starts, any history of the server and
any sequence of messages it handed to the commander, with any failures anywhere. Then everything the commander executes can be told from the files: the list of executed commands, in order,
belongs to a sublist of the messages (each message at most once), and each of them is explained by a datagram the server received (`Explained`): its last start, with the settings of the file, found a key file
with the key under which the datagram is a request; the request is addressed to one of the `ips` and its counter not further ahead of the clock than `max_clock_skew_seconds`; it carries the hash of a name in
`entries`, and the shell text is the one written there; the address is the one claimed (in strict mode: the real one) or else the real one, and not a non-routable one unless the file allows that. -/
theorem C79_executions_explained (A : Aead) (hash : List Char → U64) (penv penv' : PathEnv) (t k entries : Table) (c : ConfigServer) (d : ConfigCommander) (r : List (List Char × CommandValue))
    (ht : DistinctKeys t) (hk : DistinctKeys k) (hl : lookup k "commands" = some (.tbl entries)) (hde : DistinctKeys entries) (hin : DistinctInside entries)
    (hc : ConfigServer.deserialize t = .ok c) (hd : ConfigCommander.deserialize t = .ok d) (hr : commandsDeserialize k = .ok r)
    (w : World) (evs : List Ev) (s : Sys) (hrun : Run A (c.stateDir penv) ⟨w, none⟩ evs s) (hw : forwards w.log = [])
    (hcfg : ∀ env cfg senv, .start env cfg senv ∈ evs → cfg = c.running penv)
    (circumstances : List (Bool × ChildEnv)) (pre : Path) (w1 : World) :
    ServerSettings t c ∧ CommanderSettings t d ∧
    ∃ l, ((Commander.create d r hash penv').serve pre (Delivered s.w.log circumstances) w1).2.log = w1.log ++ l ∧
      ∃ xs : List (List Byte × U128 × List Byte), xs.Sublist (forwards s.w.log) ∧ xs.length = (spawns l).length ∧ ∀ p ∈ xs.zip (spawns l), Explained A hash penv c d entries evs p.1 p.2.1 p.2.2 := by
  refine ⟨(C66_server_settings t ht c).1 hc, (C66_commander_settings t ht d).1 hd, ?_⟩
  obtain ⟨l, h1, h2⟩ := C29_failures_only_omit (Commander.create d r hash penv') pre (Delivered s.w.log circumstances) w1
  refine ⟨l, h1, ?_⟩
  obtain ⟨xs, h3, h4, h5⟩ := sublist_of_zipWith h2
  refine ⟨xs, h3, h4, ?_⟩
  rintro ⟨x, cmd, ip⟩ hp
  obtain ⟨hx, circ, hf⟩ := h5 _ hp
  obtain ⟨pre, env, dg, src, rd, tl, post, cfg, dir, req, n, rfl, hst, hleg, rfl⟩ := (run_traced hrun rfl hw).2 x hx
  obtain rfl : cfg = c.running penv := by
    obtain ⟨p, e, senv, mid, rfl, _⟩ := hst
    exact hcfg e cfg senv (by simp)
  simp only at hf
  unfold commandFor at hf
  cases hq : request (.stream circ.1 ((message req (normalizeIp src)).take n) circ.2) with
  | none => rw [hq] at hf; cases hf
  | some y =>
    obtain ⟨h, ip'⟩ := y
    rw [hq] at hf
    simp only at hf
    obtain ⟨rfl, hip⟩ := request_message hq
    cases hg : (Commander.create d r hash penv').cmds.get req.cmdHash with
    | none => rw [hg] at hf; cases hf
    | some spec =>
      rw [hg] at hf
      simp only at hf
      split at hf
      · rename_i hallow
        cases hf
        obtain ⟨name, v, hm, hh, hcmd⟩ := (C69_commands k entries hk hl hde hin r hr d hash penv').1 _ _ hg
        refine ⟨pre, env, dg, src, rd, tl, post, dir, req, name, v, _, rfl, hst, hleg, rfl, rfl, hm, hh.symm, hcmd, hip, ?_⟩
        rcases hallow with h | h
        · exact .inl h
        · right
          rw [← C27_refused_iff_in_block]
          simpa using h
      · cases hf

/-- **C79b.** Consequently no request makes the commander execute anything twice: the messages the executed commands belong to differ pairwise in key or counter. Hypotheses as for C07: looking for the
state file never failed for another reason than its absence, and if power was lost, then syncing the directory did not fail. -/
theorem C79_executed_at_most_once (A : Aead) (dir : Path) (w : World) (evs : List Ev) (s : Sys) (hrun : Run A dir ⟨w, none⟩ evs s) (hw : forwards w.log = [])
    (hstat : .statFailed (blocklistPath dir) ∉ s.w.log) (hsync : .power ∈ evs → .dirSyncFailed (blocklistPath dir) ∉ s.w.log)
    (xs : List (List Byte × U128 × List Byte)) (hxs : xs.Sublist (forwards s.w.log)) : (xs.map (fun x => (x.1.take 8, x.2.1))).Nodup := by
  have h := (C07_counters_strictly_increase A dir w evs s hrun hw hstat hsync).sublist hxs
  unfold List.Nodup
  rw [List.pairwise_map]
  refine h.imp ?_
  intro a b hab he
  have h1 := congrArg Prod.fst he
  have h2 : a.2.1 = b.2.1 := congrArg Prod.snd he
  have := hab h1
  rw [h2] at this
  exact Nat.lt_irrefl _ this

/-- **C79c.** The other direction, for one message: when the commander reads the message of a request for `name`, an entry of commands.toml, then it executes the text written there, once, for the address of the
request, provided that no two names in the file share their hash, that the address is routable or non-routable ones are allowed, and that nothing fails. -/
theorem C79_configured_command_runs (hash : List Char → U64) (penv : PathEnv) (t k entries : Table) (d : ConfigCommander) (r : List (List Char × CommandValue))
    (hk : DistinctKeys k) (hl : lookup k "commands" = some (.tbl entries)) (hde : DistinctKeys entries) (hin : DistinctInside entries) (hd : CommanderSettings t d)
    (hr : commandsDeserialize k = .ok r) (hinj : ∀ e ∈ entries, ∀ e' ∈ entries, hash e.1 = hash e'.1 → e.1 = e'.1) (name : List Char) (v : Toml) (cmd : List Char) (seconds : Nat)
    (hm : (name, v) ∈ entries) (hcmd : IsCommand v cmd seconds) (req : ClientData) (src : Ip) (hreq : req.cmdHash = hash name) (ip : Ip) (hip : SameHost ip (req.srcIp.getD src))
    (hnot : ¬ Spec.IsMappedNotation ip) (hallow : lookup t "allow_non_routable_ips" = some (.bool true) ∨ ¬ NonRoutable ip) (pre : Path) (env : ChildEnv)
    (hends : Ends (Commander.create d r hash penv) (.stream false (message req (normalizeIp src)) env)) (w : World) (hw : Works 2 w) :
    ∃ l, ((Commander.create d r hash penv).serve pre [.stream false (message req (normalizeIp src)) env] w).2.log = w.log ++ l ∧ spawns l = [(cmd, ip)] := by
  obtain ⟨x, h1, h2⟩ := (commandsDeserialize_ok hk).1 hr
  rw [hl] at h1
  cases h1
  obtain ⟨hkeys, ha, hb⟩ := mapM_entries h2
  obtain ⟨v1, hv1, hv2⟩ := hb name v hm
  obtain ⟨v2, hv3, rfl, -⟩ := (asCommand_iff (fun l e => hin name l (e ▸ hm))).2 hcmd
  rw [hv2] at hv3
  cases hv3
  have hex : Executes (Commander.create d r hash penv) hash r name v1 ip := by
    refine ⟨rfl, hv1, by rw [hkeys]; exact hde, ?_, ?_⟩
    · intro e he e' he' hh
      have m1 : e.1 ∈ entries.map Prod.fst := hkeys ▸ List.mem_map_of_mem he
      have m2 : e'.1 ∈ entries.map Prod.fst := hkeys ▸ List.mem_map_of_mem he'
      obtain ⟨f, hf, hf'⟩ := List.mem_map.1 m1
      obtain ⟨g, hg, hg'⟩ := List.mem_map.1 m2
      rw [← hf', ← hg']
      exact hinj f hf g hg (by rw [hf', hg']; exact hh)
    · rcases hallow with h | h
      · left
        obtain ⟨-, -, -, -, h5⟩ := hd
        rcases h5 with ⟨h6, -⟩ | ⟨x, h6, h7⟩
        · rw [h] at h6; cases h6
        · rw [h] at h6
          cases h6
          generalize hb : d.allowNonRoutable = b at h7
          cases h7
          exact hb
      · exact .inr h
  have e : message req (normalizeIp src) = (CommanderData.mk (hash name) (req.srcIp.getD (normalizeIp src))).toBytes := by unfold message; rw [hreq]
  rw [e] at hends ⊢
  refine commander_runs _ hash r name v1 ip hex (normalizeIp_of_not_mapped hnot) _ ?_ pre env hends w hw
  rw [← normalizeIp_eq_iff_sameHost, (normalizeIp_eq_iff_sameHost ip _).2 hip]
  cases req.srcIp with
  | none => exact (C06_normalize_idempotent src).1
  | some _ => rfl

/-! ## C80: where the server writes -/

theorem isStateFile_of {dir q : Path} (h : q = blocklistPath dir ∨ IsTmpOf (blocklistPath dir) q) : IsStateFile dir q := by
  rcases h with rfl | ⟨n, rfl⟩
  · exact .inl rfl
  · exact .inr ⟨n.toNat, by simp [tmpPath, blocklistPath]⟩

theorem serverMay_of_fileEvents {dir : Path} {l : List Event} (h : FileEvents (fun q => q = blocklistPath dir ∨ IsTmpOf (blocklistPath dir) q) l) : ∀ e ∈ l, ServerMay dir e := by
  intro e he
  have := h e he
  cases e with
  | file op q => exact .file op q (isStateFile_of this)
  | statFailed q => exact .statFailed q (isStateFile_of this)
  | dirSyncFailed q => exact .dirSyncFailed q (isStateFile_of this)
  | _ => exact this.elim

/-- The log grew by allowed events, and files that are not state files stayed as they were. -/
def Confined (dir : Path) (w w' : World) : Prop := (∃ l, w'.log = w.log ++ l ∧ ∀ e ∈ l, ServerMay dir e) ∧ ∀ q, ¬ IsStateFile dir q → w'.fs q = w.fs q

theorem confined_packet {A : Aead} {dir : Path} {s : Server} (hp : s.bl.path = blocklistPath dir) {dg : List Byte} {src : Ip} {w w' : World} {o : Option Server} (h : PacketCase A s dg src w o w') :
    Confined dir w w' := by
  have notTmp : ∀ {q}, ¬ IsStateFile dir q → q ≠ s.bl.path ∧ ¬ IsTmpOf s.bl.path q := by
    intro q hq
    rw [hp]
    exact ⟨fun h => hq (isStateFile_of (.inl h)), fun h => hq (isStateFile_of (.inr h))⟩
  cases h with
  | nothing s' _ hb hh hc h1 h2 h3 => exact ⟨⟨[], by simp [h3], by simp⟩, fun q _ => by rw [h1]⟩
  | saved now d hclk ha c o ho _ w' hy hsv =>
    obtain ⟨l, h1, h2⟩ := hsv.log
    rw [hp] at h2
    exact ⟨⟨l, h1, serverMay_of_fileEvents h2⟩, fun q hq => (hsv.frame q (notTmp hq).1 (notTmp hq).2).1⟩
  | acted now d hclk ha c _ w1 w' o hy hsv hsent =>
    obtain ⟨l, h1, h2⟩ := hsv.log
    rw [hp] at h2
    obtain ⟨n, l2, _, h3, h4⟩ := hsent.log
    refine ⟨⟨l ++ List.replicate n .connect ++ l2, by rw [h3, h1]; simp, ?_⟩, fun q hq => by rw [hsent.fs]; exact (hsv.frame q (notTmp hq).1 (notTmp hq).2).1⟩
    intro e he
    rcases List.mem_append.1 he with he | he
    · rcases List.mem_append.1 he with he | he
      · exact serverMay_of_fileEvents h2 e he
      · rw [List.eq_of_mem_replicate he]; exact .connect
    · rcases h4 with rfl | ⟨k, rfl⟩
      · cases he
      · simp only [List.mem_singleton] at he
        subst he
        exact .forward ..

theorem Confined.trans {dir : Path} {a b c : World} (h : Confined dir a b) (h' : Confined dir b c) : Confined dir a c := by
  obtain ⟨⟨l, h1, h2⟩, h3⟩ := h
  obtain ⟨⟨l', h1', h2'⟩, h3'⟩ := h'
  refine ⟨⟨l ++ l', by rw [h1', h1, List.append_assoc], ?_⟩, fun q hq => by rw [h3' q hq, h3 q hq]⟩
  intro e he
  rcases List.mem_append.1 he with he | he
  · exact h2 e he
  · exact h2' e he

theorem run_serverMay {A : Aead} {dir : Path} {s s' : Sys} {evs : List Ev} (h : Run A dir s evs s') (h0 : s.srv = none) :
    (∃ l, s'.w.log = s.w.log ++ l ∧ ∀ e ∈ l, ServerMay dir e) ∧ ((∀ e ∈ evs, e ≠ .power ∧ e ≠ .others) → Confined dir s.w s'.w) := by
  have hlive : ∀ srv, s.srv = some srv → Live false dir s.w srv := fun srv hs => by rw [h0] at hs; cases hs
  induction h with
  | nil => exact ⟨⟨[], by simp, by simp⟩, fun _ => ⟨⟨[], by simp, by simp⟩, fun _ _ => rfl⟩⟩
  | snoc hr hst ih =>
    rename_i s2 s3 evs e
    obtain ⟨⟨l, hl1, hl2⟩, ih2⟩ := ih
    have hl := live_run_false hr hlive
    have fin : Confined dir s2.w s3.w → (∃ l, s3.w.log = s.w.log ++ l ∧ ∀ e ∈ l, ServerMay dir e) ∧ ((∀ x ∈ evs ++ [e], x ≠ .power ∧ x ≠ .others) → Confined dir s.w s3.w) := by
      intro hc
      refine ⟨?_, fun hq => (ih2 (fun x hx => hq x (List.mem_append_left _ hx))).trans hc⟩
      obtain ⟨⟨l', h1, h2⟩, _⟩ := hc
      refine ⟨l ++ l', by rw [h1, hl1, List.append_assoc], ?_⟩
      intro x hx
      rcases List.mem_append.1 hx with hx | hx
      · exact hl2 x hx
      · exact h2 x hx
    have start : ∀ {cfg senv o w w' env}, cfg.blDir = dir → Created cfg senv (World.withEnv w env []) o w' → Confined dir w w' := by
      intro cfg senv o w w' env hd hc
      obtain ⟨l, h1, h2⟩ := hc.log
      have hf := hc.frame
      rw [hd] at h2 hf
      exact ⟨⟨l, h1, serverMay_of_fileEvents h2⟩, fun q hq => hf q (fun h => hq (isStateFile_of (.inl h))) (fun h => hq (isStateFile_of (.inr h)))⟩
    cases hst with
    | started w env cfg senv s w' hdir hord h => exact fin (start hdir (created_of_step hord h))
    | startFailed w env cfg senv o w' hdir hord h hne => exact fin (start hdir (created_of_step hord h))
    | packet w s env dg src rd tLog s' r w' h =>
      have hp : Confined dir (w.withEnv env (dg.take MSG_SIZE)) w' := confined_packet (hl _ rfl).path (packetCase_of_step (hl _ rfl).wf h)
      exact fin hp
    | packetCrash w s env dg src rd tLog w' h =>
      have hp : Confined dir (w.withEnv env (dg.take MSG_SIZE)) w' := confined_packet (hl _ rfl).path (packetCase_of_step (hl _ rfl).wf h)
      exact fin hp
    | kill w s => exact fin ⟨⟨[], by simp, by simp⟩, fun _ _ => rfl⟩
    | power w s w' h => exact ⟨⟨l, by rw [← hl1]; exact h.log, hl2⟩, fun hq => absurd rfl (hq .power (by simp)).1⟩
    | others w w' s hfs hpend hlog => exact ⟨⟨l, by rw [← hl1]; exact hlog, hl2⟩, fun hq => absurd rfl (hq .others (by simp)).2⟩

/-- **C80.** In every history of a server running with the settings of a config.toml, whatever is sent to it and whatever fails: all it does to files concerns `blocklist.msgpck` (and temporary siblings) in the
directory `blocklist_dir` of the file, or `config_dir` if that is not given (or `/etc/ruroco` if neither is); beyond that it only talks to the commander's socket. In particular no other file is changed
by it, and it sends no datagram and starts no command. -/
theorem C80_server_writes_only_state (A : Aead) (t : Table) (ht : DistinctKeys t) (c : ConfigServer) (hc : ConfigServer.deserialize t = .ok c) (penv : PathEnv) (dir : List Char)
    (hdir : Spec.Required t "blocklist_dir" Spec.IsText dir ∨ (lookup t "blocklist_dir" = none ∧ Spec.Defaulted t "config_dir" Spec.IsText "/etc/ruroco".toList dir)) (habs : dir.head? = some '/')
    (w : World) (evs : List Ev) (s : Sys) (hrun : Run A (c.stateDir penv) ⟨w, none⟩ evs s) :
    (∃ l, s.w.log = w.log ++ l ∧ ∀ e ∈ l, ServerMay dir e) ∧ ((∀ e ∈ evs, e ≠ .power ∧ e ≠ .others) → ∀ q, ¬ IsStateFile dir q → s.w.fs q = w.fs q) := by
  obtain ⟨-, -, h3, h4, -⟩ := (C66_server_settings t ht c).1 hc
  have hd : c.blocklistDir.getD c.configDir = dir := by
    have text : ∀ {x : Toml} {a b : List Char}, Spec.IsText x a → Spec.IsText x b → a = b := by intro x a b h h'; cases h; cases h'; rfl
    rcases hdir with ⟨x, h5, h6⟩ | ⟨h5, h6⟩
    · rcases h4 with ⟨h7, _⟩ | ⟨y, a, h7, h8, h9⟩
      · rw [h5] at h7; cases h7
      · rw [h5] at h7; cases h7
        rw [h9]
        exact text h8 h6
    · rcases h4 with ⟨_, h8⟩ | ⟨y, a, h7, _⟩
      · rw [h8]
        show c.configDir = dir
        rcases h3 with ⟨h9, h10⟩ | ⟨x, h9, h10⟩
        · rcases h6 with ⟨_, h11⟩ | ⟨y, h11, _⟩
          · rw [h10, h11]
          · rw [h9] at h11; cases h11
        · rcases h6 with ⟨h11, _⟩ | ⟨y, h11, h12⟩
          · rw [h9] at h11; cases h11
          · rw [h9] at h11; cases h11
            exact text h10 h12
      · rw [h5] at h7; cases h7
  have e : c.stateDir penv = dir := by
    unfold ConfigServer.stateDir resolvePath
    rw [hd, if_pos (by unfold isAbsolute; rw [habs]; rfl)]
  rw [e] at hrun
  obtain ⟨h1, h2⟩ := run_serverMay hrun rfl
  exact ⟨h1, fun hq => (h2 hq).2⟩

/-! ## Concrete case -/

/-- A config.toml. -/
def exSetup : Table :=
  [("ips".toList, .arr [.str "10.0.0.2".toList]), ("blocklist_dir".toList, .str "/s".toList), ("max_requests_per_second".toList, .int 10), ("allow_non_routable_ips".toList, .bool true)]

/-- The entries of its commands.toml. -/
def exEntries : Table := [("open".toList, .str "ufw allow".toList), ("open_it".toList, .tbl [("cmd".toList, .str "ufw allow from $RUROCO_IP".toList), ("timeout_sec".toList, .int 5)])]

def exSetupServer : ConfigServer := ⟨[.v4 0x0a000002], none, "/etc/ruroco".toList, some "/s".toList, none, 10, 100, 3600⟩

def exSetupCommander : ConfigCommander := ⟨"/etc/ruroco".toList, none, "ruroco".toList, "ruroco".toList, true⟩

def exSetupCommands : List (List Char × CommandValue) := [("open".toList, .plain "ufw allow".toList), ("open_it".toList, .detailed "ufw allow from $RUROCO_IP".toList (some 5))]

def exPathEnv : PathEnv := ⟨some "/".toList, fun _ => none⟩

/-- Start, a request, the same once more, another one after a restart. -/
def exSetupHistory : List Ev := [exStart 1000 [], exPacket 5000 1100 [], exPacket 5000 1200 [], .kill, exStart 2000 [], exPacket 6000 2100 []]

/-- The hypotheses of C79, C79b and C80. -/
example : DistinctKeys exSetup ∧ DistinctKeys exEntries ∧ DistinctInside exEntries ∧ ConfigServer.deserialize exSetup = .ok exSetupServer ∧ ConfigCommander.deserialize exSetup = .ok exSetupCommander ∧
    commandsDeserialize [("commands".toList, .tbl exEntries)] = .ok exSetupCommands := by
  refine ⟨by unfold DistinctKeys; decide +kernel, by unfold DistinctKeys; decide +kernel, ?_, by decide +kernel, by decide +kernel, by decide +kernel⟩
  intro name l h
  simp only [exEntries, List.mem_cons, List.not_mem_nil, or_false, Prod.mk.injEq] at h
  rcases h with ⟨_, h⟩ | ⟨_, h⟩
  · cases h
  · cases h
    unfold DistinctKeys
    decide +kernel

theorem exSetup_start (env : Env) (cfg : ServerCfg) (senv : StartEnv) (h : .start env cfg senv ∈ exSetupHistory) : cfg = exSetupServer.running exPathEnv := by
  simp only [exSetupHistory, exStart, exPacket, List.mem_cons, List.not_mem_nil, or_false, Ev.start.injEq, reduceCtorEq, false_or] at h
  have e : ({ exServer.cfg with maxPerIp := 10 } : ServerCfg) = exSetupServer.running exPathEnv := by rfl
  rcases h with ⟨_, rfl, _⟩ | ⟨_, rfl, _⟩ <;> exact e

example : Run toyAead (exSetupServer.stateDir exPathEnv) ⟨exEmpty, none⟩ exSetupHistory (exSetupHistory.foldl (exec toyAead) ⟨exEmpty, none⟩) ∧
    forwards exEmpty.log = [] ∧ .statFailed (blocklistPath (exSetupServer.stateDir exPathEnv)) ∉ (exSetupHistory.foldl (exec toyAead) ⟨exEmpty, none⟩).w.log ∧
    (forwards (exSetupHistory.foldl (exec toyAead) ⟨exEmpty, none⟩).w.log).map (fun x => x.2.1) = [5000, 6000] := by
  refine ⟨?_, rfl, by decide +kernel, by decide +kernel⟩
  apply run_exec
  refine ⟨⟨rfl, rfl⟩, ?_, ?_, trivial, ⟨rfl, rfl⟩, ?_, trivial⟩ <;> first | rfl | decide +kernel

/-- Both requests handed over are executed, with the text of the file. -/
example : spawns ((Commander.create exSetupCommander exSetupCommands exHash exPathEnv).serve []
      (Delivered (exSetupHistory.foldl (exec toyAead) ⟨exEmpty, none⟩).w.log [(false, exEnv), (false, exEnv)]) (exCmdrWorld [])).2.log =
    [("ufw allow from $RUROCO_IP".toList, .v4 0x0a000001), ("ufw allow from $RUROCO_IP".toList, .v4 0x0a000001)] := by
  decide +kernel

/-- The hypotheses of C79c. -/
example : (∀ e ∈ exEntries, ∀ e' ∈ exEntries, exHash e.1 = exHash e'.1 → e.1 = e'.1) ∧ CommanderSettings exSetup exSetupCommander ∧ exRequest.cmdHash = exHash "open_it".toList ∧
    lookup exSetup "allow_non_routable_ips" = some (.bool true) ∧ Ends (Commander.create exSetupCommander exSetupCommands exHash exPathEnv) (.stream false (message exRequest (.v4 0x0a000001)) exEnv) :=
  ⟨by decide +kernel, (C66_commander_settings _ (by unfold DistinctKeys; decide +kernel) _).1 (by decide +kernel), by decide +kernel, by rfl, by
    intro h spec hs
    obtain ⟨name, v, hm, _, rfl⟩ := C26_selected_is_configured exHash exSetupCommands _ _ hs
    simp only [exSetupCommands, List.mem_cons, List.not_mem_nil, or_false] at hm
    rcases hm with hm | hm <;> cases hm <;> decide +kernel⟩

end Ruroco
