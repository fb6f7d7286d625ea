import Verif.Props.Refusal
import Verif.Props.ClientLog
import Verif.Lemmas.Oracle
import Verif.Spec.DebugLog

/-!
# C126: with debugging on, the log tells what became of every datagram
-/

namespace Ruroco

open Spec (Legitimate forwards message announcement Holds Fate Happened Fates begins cutStep reports reason fateOf toStdout undebugged PortOk)

/-! ## Switching it on -/

theorem lower_debug (v : List Char) : isDebugLogLevel (some v) = true ↔ v.map Char.toLower = "debug".toList := by
  unfold isDebugLogLevel
  exact beq_iff_eq

theorem lower_is (x l u : Char) (h : l.val.toNat = u.val.toNat + 32) (h1 : 65 ≤ u.val.toNat) (h2 : u.val.toNat ≤ 90) : x.toLower = l ↔ x = l ∨ x = u := by
  unfold Char.toLower
  split
  · rename_i hx
    obtain ⟨ha, hz⟩ := hx
    have ha : 65 ≤ x.val.toNat := UInt32.le_iff_toNat_le.1 ha
    have hz : x.val.toNat ≤ 90 := UInt32.le_iff_toNat_le.1 hz
    have e : (x.val + 32).toNat = x.val.toNat + 32 := by
      rw [UInt32.toNat_add]
      exact Nat.mod_eq_of_lt (by show x.val.toNat + 32 < 2 ^ 32; omega)
    constructor
    · intro hh
      right
      have := congrArg (fun c => c.val.toNat) hh
      apply Char.ext
      apply UInt32.toNat_inj.1
      have this : (x.val + 32).toNat = l.val.toNat := this
      omega
    · rintro (rfl | rfl)
      · omega
      · apply Char.ext
        apply UInt32.toNat_inj.1
        show (x.val + 32).toNat = l.val.toNat
        omega
  · rename_i hx
    constructor
    · exact Or.inl
    · rintro (rfl | rfl)
      · rfl
      · exact absurd ⟨UInt32.le_iff_toNat_le.2 h1, UInt32.le_iff_toNat_le.2 h2⟩ hx

/-- **C126a.** Nothing but the word `debug`, in capitals or not, switches the lines of that level on. -/
theorem C126_switch (value : Option (List Char)) : isDebugLogLevel value = true ↔
    ∃ a b c d e, value = some [a, b, c, d, e] ∧ (a = 'd' ∨ a = 'D') ∧ (b = 'e' ∨ b = 'E') ∧ (c = 'b' ∨ c = 'B') ∧ (d = 'u' ∨ d = 'U') ∧ (e = 'g' ∨ e = 'G') := by
  have hd : "debug".toList = ['d', 'e', 'b', 'u', 'g'] := by decide
  constructor
  · intro h
    cases value with
    | none => cases h
    | some v =>
      rw [lower_debug, hd] at h
      rcases v with _ | ⟨a, _ | ⟨b, _ | ⟨c, _ | ⟨d, _ | ⟨e, _ | ⟨f, v⟩⟩⟩⟩⟩⟩
      case cons.cons.cons.cons.cons.nil =>
        simp only [List.map_cons, List.map_nil, List.cons.injEq, and_true] at h
        obtain ⟨h1, h2, h3, h4, h5⟩ := h
        exact ⟨a, b, c, d, e, rfl, (lower_is a 'd' 'D' (by decide) (by decide) (by decide)).1 h1, (lower_is b 'e' 'E' (by decide) (by decide) (by decide)).1 h2,
          (lower_is c 'b' 'B' (by decide) (by decide) (by decide)).1 h3, (lower_is d 'u' 'U' (by decide) (by decide) (by decide)).1 h4,
          (lower_is e 'g' 'G' (by decide) (by decide) (by decide)).1 h5⟩
      all_goals
        have hn := congrArg List.length h
        simp only [List.map_cons, List.map_nil, List.length_cons, List.length_nil] at hn
        omega
  · rintro ⟨a, b, c, d, e, rfl, h1, h2, h3, h4, h5⟩
    rw [lower_debug, hd]
    simp only [List.map_cons, List.map_nil, List.cons.injEq, and_true]
    exact ⟨(lower_is a 'd' 'D' (by decide) (by decide) (by decide)).2 h1, (lower_is b 'e' 'E' (by decide) (by decide) (by decide)).2 h2,
      (lower_is c 'b' 'B' (by decide) (by decide) (by decide)).2 h3, (lower_is d 'u' 'U' (by decide) (by decide) (by decide)).2 h4,
      (lower_is e 'g' 'G' (by decide) (by decide) (by decide)).2 h5⟩

/-! ## Nothing else changes -/

theorem debugLog_off (A : Aead) (s : Server) (dg : List Byte) (src : SockAddr) (rd : Readings) (tl : Nat) (w : World) :
    s.debugLog A false dg src rd tl w = (s.handleLog A dg src.ip rd tl w).map .plain := by
  unfold Server.debugLog Server.handleLog
  simp

theorem undebugged_plain (l : List SrvEntry) : (l.map DbgLine.plain).filterMap undebugged = l := by
  induction l with
  | nil => rfl
  | cons a l ih => rw [List.map_cons, List.filterMap_cons]; simp only [undebugged]; rw [ih]

theorem debugLog_same (A : Aead) (debug : Bool) (s : Server) (dg : List Byte) (src : SockAddr) (rd : Readings) (tl : Nat) (w : World) :
    (s.debugLog A debug dg src rd tl w).filterMap undebugged = s.handleLog A dg src.ip rd tl w := by
  unfold Server.debugLog Server.handleLog
  simp only [List.filterMap_append, undebugged_plain]
  have h1 : (if debug && (dg.take MSG_SIZE).length == MSG_SIZE then [DbgLine.received MSG_SIZE src] else []).filterMap undebugged = [] := by
    split <;> rfl
  have h2 : (if debug then ((s.refusal A dg src rd w).map DbgLine.failed).toList else []).filterMap undebugged = [] := by
    split
    · cases s.refusal A dg src rd w <;> rfl
    · rfl
  rw [h1, h2]
  simp

/-- **C126b.** Debugging adds lines and changes nothing else: without them the log is what it is when debugging is off. -/
theorem C126_only_adds (A : Aead) (debug : Bool) (ts : List (Turn × Nat)) : ∀ (s : Server) (w : World),
    (debugRun A debug s w ts).filterMap undebugged = (runLog A s w (ts.map Prod.fst)).flatten ∧
      debugRun A false s w ts = (runLog A s w (ts.map Prod.fst)).flatten.map .plain := by
  induction ts with
  | nil => intro s w; exact ⟨rfl, rfl⟩
  | cons x ts ih =>
    obtain ⟨t, port⟩ := x
    intro s w
    rw [List.map_cons]
    unfold debugRun runLog
    simp only
    by_cases hs : t.shutdown = true
    · rw [if_pos hs, if_pos hs, if_pos hs]; exact ⟨rfl, rfl⟩
    rw [if_neg hs, if_neg hs, if_neg hs]
    cases hrv : t.recv with
    | fatal => exact ⟨rfl, rfl⟩
    | retry => exact ih s w
    | datagram dg src rd tl =>
      simp only
      rw [List.filterMap_append, debugLog_same, List.flatten_cons, List.map_append, debugLog_off]
      rcases s.handleDatagram A dg src rd tl (w.withEnv t.env (dg.take MSG_SIZE)) with ⟨o, w1⟩
      cases o with
      | ok p =>
        simp only
        rw [(ih p.1 w1).1, (ih p.1 w1).2]
        exact ⟨rfl, rfl⟩
      | err e => exact ⟨rfl, rfl⟩
      | crash => exact ⟨rfl, rfl⟩

/-! ## One datagram -/

theorem allOk_of_draws {m : Act α} (h : Draws m) {w w' : World} {o : Out α} (hm : m w = (o, w')) (hw : AllOk w) : AllOk w' := by
  have := h w
  rw [hm] at this
  exact fun c hc => hw c (this.mem hc)

theorem draws_save (b : Blocklist) : Draws b.save := by
  unfold Blocklist.save
  exact Draws.bind (Draws.ofExcept _) (fun _ => Draws.writeAtomic _ _)

theorem draws_update (s : Server) (k : List Byte) (c : U128) : Draws (s.updateBlockList k c) := by
  unfold Server.updateBlockList
  refine Draws.bind (Draws.attempt (draws_save _)) ?_
  intro r
  cases r <;> exact Draws.pure _

/-- "Could not send" is not written if every call works. -/
theorem notSent_failed {A : Aead} {s : Server} {dg : List Byte} {src : Ip} {rd : Readings} {w : World} (h : SrvEntry.notSent ∈ s.iterationLog A dg src rd w) : ∃ c ∈ w.oracle, c ≠ .ok := by
  apply Classical.byContradiction
  intro hn
  have hw : AllOk w := fun c hc => Classical.byContradiction (fun hc' => hn ⟨c, hc, hc'⟩)
  obtain ⟨rl, now, c, d, ha⟩ := log_acts (fun e => by rw [e] at h; cases h)
  rw [(acts_log ha).1] at h
  rcases List.mem_cons.1 h with h | h
  · cases h
  · have hw1 : AllOk ({ w with clock := c } : World) := hw
    rcases hu : ({ s with rl } : Server).updateBlockList (dg.take 8) d.counter { w with clock := c } with ⟨o, w2⟩
    have hw2 := allOk_of_draws (draws_update _ _ _) hu hw1
    rw [hu] at h
    cases o with
    | err e => cases h
    | crash => cases h
    | ok p =>
      obtain ⟨s2, r⟩ := p
      cases r with
      | error e => cases h
      | ok u =>
        cases u
        have h : SrvEntry.notSent ∈ sendLog d.counter { cmdHash := d.cmdHash, ip := d.srcIp.getD (normalizeIp src) } w2 := h
        rcases sendLog_cases d.counter { cmdHash := d.cmdHash, ip := d.srcIp.getD (normalizeIp src) } w2 with ⟨e, _⟩ | ⟨_, _, hx⟩ | ⟨e, _⟩
        · rw [e] at h; simp at h
        · exact hx hw2
        · rw [e] at h; cases h

/-- What is written to the standard output about one datagram that is processed to the end. -/
theorem stdout_block (A : Aead) (s : Server) (hb : s.bl.Wf) (dg : List Byte) (src : SockAddr) (rd : Readings) (tl : Nat) (w w' : World) (s' : Server) (r : Except Err Unit)
    (h : s.handleDatagram A dg src.ip rd tl w = (.ok (s', r), w')) :
    ∃ l ls, (s.debugLog A true dg src rd tl w).filter toStdout = l :: ls ∧ begins l = true ∧ (∀ x ∈ ls, begins x = false) ∧ Happened A s dg src rd w r w' (fateOf (l :: ls)) := by
  have hl := iteration_logged A s hb dg src.ip rd w
  have he := refusal_ends A s dg src rd w
  have hold := fun x => refusal_holds (A := A) (s := s) (dg := dg) (src := src) (rd := rd) (w := w) (x := x)
  have hns := notSent_failed (A := A) (s := s) (dg := dg) (src := src.ip) (rd := rd) (w := w)
  rw [handleDatagram_eq] at h
  obtain ⟨ho, rfl⟩ := Prod.mk.inj h
  clear h
  have thr : ∀ (tl : Nat) (o : Out (Server × Except Err Unit)), ((throttleLog tl o).map DbgLine.plain).filter toStdout = [] := by
    intro tl o
    unfold throttleLog
    split
    · rename_i s1 e
      cases (s1.throttle.log tl).1 <;> rfl
    · rfl
  unfold Server.debugLog
  simp only [Bool.true_and, if_true, List.filter_append, thr, List.append_nil]
  by_cases h94 : (dg.take MSG_SIZE).length = MSG_SIZE
  · have hsz : 94 ≤ dg.length := by
      have e : MSG_SIZE = 94 := rfl
      rw [e, List.length_take] at h94
      omega
    have nb : ∀ x, s.refusal A dg src rd w = some x → begins (.failed x) = false := by
      intro x hx
      have := hold x hx
      cases x with
      | badSize c a => obtain ⟨_, h2, _⟩ := this; omega
      | _ => rfl
    rw [h94, if_pos (by simp)]
    generalize s.refusal A dg src rd w = q at he hold nb ⊢
    generalize s.iterationLog A dg src.ip rd w = l, (s.iteration A dg src.ip rd w).1 = o', (s.iteration A dg src.ip rd w).2 = w' at hl ho he hns ⊢
    cases hl with
    | refused e rl c hn =>
      cases ho
      cases q with
      | none => exact absurd rfl (he _ e)
      | some x =>
        obtain ⟨_, e1⟩ := he
        cases e1
        exact ⟨_, [.failed x], rfl, rfl, by simpa using nb x rfl, rfl, hold x rfl, rfl⟩
    | unsaved rl now c d e _ ha hs =>
      cases ho
      cases q with
      | none => exact absurd rfl (he _ .save)
      | some x =>
        obtain ⟨_, e1⟩ := he
        have ek : x.kind = .save := by
          injection e1 with e2
          injection e2 with _ e3
          injection e3 with e4
          exact e4.symm
        refine ⟨_, [.plain (announcement s dg src.ip d), .failed x], rfl, rfl, ?_, by rw [ek], hold x rfl, hs.forwards⟩
        intro y hy
        simp only [List.mem_cons, List.not_mem_nil, or_false] at hy
        rcases hy with rfl | rfl
        · rfl
        · exact nb x rfl
    | diedSaving rl now c d _ ha hs => cases ho
    | sent rl now c d w1 _ ha hs hse hw =>
      cases ho
      cases q with
      | some x => obtain ⟨_, e1⟩ := he; cases e1
      | none =>
        refine ⟨_, [.plain (announcement s dg src.ip d), .plain .sent], rfl, rfl, ?_, rfl, d, ⟨now, c, ha.clock, ha.acc⟩, ?_⟩
        · intro y hy
          simp only [List.mem_cons, List.not_mem_nil, or_false] at hy
          rcases hy with rfl | rfl <;> rfl
        · rw [hw, hs.forwards, hs.cur]
    | notSent rl now c d w1 _ ha hs hse hw =>
      cases ho
      cases q with
      | some x => obtain ⟨_, e1⟩ := he; cases e1
      | none =>
        refine ⟨_, [.plain (announcement s dg src.ip d)], rfl, rfl, ?_, rfl, hns (by simp), d, ⟨now, c, ha.clock, ha.acc⟩, ?_⟩
        · intro y hy
          simp only [List.mem_cons, List.not_mem_nil, or_false] at hy
          rcases hy with rfl
          rfl
        · have := hse.forwards
          rw [hs.forwards, hs.cur] at this
          exact this
    | diedSending rl now c d w1 _ ha hs hse => cases ho
  · have hq : s.refusal A dg src rd w = some (.badSize (dg.take MSG_SIZE).length src) := by
      unfold Server.refusal
      exact if_pos h94
    have hit : s.iterationLog A dg src.ip rd w = [] := by
      unfold Server.iterationLog
      exact if_pos h94
    rw [if_neg (by simpa using h94), hq, hit]
    refine ⟨_, [], rfl, rfl, nofun, ?_⟩
    rw [hq] at he
    obtain ⟨s1, e1⟩ := he
    generalize s.iterationLog A dg src.ip rd w = l at hl hit
    generalize (s.iteration A dg src.ip rd w).1 = o', (s.iteration A dg src.ip rd w).2 = w' at hl ho e1 ⊢
    subst e1
    cases ho
    refine ⟨rfl, hold _ hq, ?_⟩
    subst hit
    generalize ho : (Out.ok (s1, Except.error (Refusal.badSize (dg.take MSG_SIZE).length src).kind) : Out (Server × Except Err Unit)) = o at hl
    cases hl with
    | refused e rl c hn => rfl

/-! ## The whole log -/

theorem cut_block {l : DbgLine} {ls rest : List DbgLine} (hl : begins l = true) (hls : ∀ x ∈ ls, begins x = false) (hr : (rest.foldr cutStep ([], [])).1 = []) :
    ((l :: ls ++ rest).foldr cutStep ([], [])).1 = [] ∧ reports (l :: ls ++ rest) = (l :: ls) :: reports rest := by
  have h1 : ∀ ls : List DbgLine, (∀ x ∈ ls, begins x = false) → (ls ++ rest).foldr cutStep ([], []) = (ls, reports rest) := by
    intro ls
    induction ls with
    | nil =>
      intro _
      exact Prod.ext hr rfl
    | cons a ls ih =>
      intro ha
      rw [List.cons_append, List.foldr_cons, ih (fun x hx => ha x (List.mem_cons_of_mem _ hx))]
      unfold cutStep
      rw [ha a List.mem_cons_self]
      rfl
  unfold reports
  rw [List.cons_append, List.foldr_cons, h1 ls hls]
  unfold cutStep
  rw [hl]
  exact ⟨rfl, rfl⟩

theorem wf_after {A : Aead} {s s1 : Server} (hb : s.bl.Wf) {dg : List Byte} {src : Ip} {rd : Readings} {tl : Nat} {w w1 : World} {r : Except Err Unit}
    (hh : s.handleDatagram A dg src rd tl w = (.ok (s1, r), w1)) : s1.bl.Wf := by
  have hspec := handleDatagram_spec A s hb dg src rd tl w
  unfold wp at hspec
  rw [hh] at hspec
  have h3 := packetCase_of_handled hspec
  generalize hs : Out.server (.ok (s1, r)) = os at h3
  have hs : os = some s1 := hs.symm
  cases h3 with
  | nothing _ _ e => cases hs; rw [e]; exact hb
  | saved _ _ _ _ _ _ _ _ _ hx => rw [(hx _ hs).1]; exact hb
  | acted _ _ _ ha _ _ _ _ _ hx => rw [(hx _ hs).1]; exact insert_wf_of_acceptable hb ha

/-- **C126c.** With debugging on, as long as the server runs, its standard output tells what became of each datagram, in the order of their arrival: the lines can be cut into reports, one for each
datagram, and what each says is what happened. -/
theorem C126_fates_told (A : Aead) (ts : List (Turn × Nat)) : ∀ (s : Server) (_ : s.bl.Wf) (w w' : World) (s' : Server) (_ : runLoop A s w (ts.map Prod.fst) = (.running s', w')),
    Fates A s w ts ((reports ((debugRun A true s w ts).filter toStdout)).map fateOf) := by
  suffices H : ∀ (s : Server) (_ : s.bl.Wf) (w w' : World) (s' : Server) (_ : runLoop A s w (ts.map Prod.fst) = (.running s', w')),
      (((debugRun A true s w ts).filter toStdout).foldr cutStep ([], [])).1 = [] ∧ Fates A s w ts ((reports ((debugRun A true s w ts).filter toStdout)).map fateOf) from
    fun s hb w w' s' h => (H s hb w w' s' h).2
  induction ts with
  | nil => intro s _ w _ _ _; exact ⟨rfl, .none s w⟩
  | cons x ts ih =>
    obtain ⟨t, port⟩ := x
    intro s hb w w' s' h
    rw [List.map_cons] at h
    unfold runLoop at h
    unfold debugRun
    simp only at h ⊢
    by_cases hs : t.shutdown = true
    · rw [if_pos hs] at h; cases h
    rw [if_neg hs] at h ⊢
    cases hrv : t.recv with
    | fatal => rw [hrv] at h; cases h
    | retry =>
      rw [hrv] at h
      simp only at h ⊢
      obtain ⟨h1, h2⟩ := ih s hb w w' s' h
      exact ⟨h1, .retry s w t port ts _ hrv h2⟩
    | datagram dg src rd tl =>
      rw [hrv] at h
      simp only at h ⊢
      rcases hh : s.handleDatagram A dg src rd tl (w.withEnv t.env (dg.take MSG_SIZE)) with ⟨o, w1⟩
      rw [hh] at h
      cases o with
      | err e => cases h
      | crash => cases h
      | ok p =>
        obtain ⟨s1, r⟩ := p
        simp only at h ⊢
        obtain ⟨g1, g2⟩ := ih s1 (wf_after hb hh) w1 w' s' h
        obtain ⟨l, ls, e1, e2, e3, e4⟩ := stdout_block A s hb dg ⟨src, port⟩ rd tl _ w1 s1 r hh
        rw [List.filter_append, e1]
        obtain ⟨c1, c2⟩ := cut_block e2 e3 g1
        refine ⟨c1, ?_⟩
        rw [c2, List.map_cons]
        exact .datagram s s1 w w1 t port ts dg src rd tl r _ _ hrv hh e4 g2

/-! ## The lines as text -/

theorem date_free {date : List Char} (h : ' ' ∉ date) {x y d' : List Char} (h' : ' ' ∉ d') (e : '[' :: date ++ ' ' :: x = '[' :: d' ++ ' ' :: y) : date = d' ∧ x = y := by
  rw [List.cons_append, List.cons_append] at e
  exact cut_at h h' (List.cons.inj e).2

/-- **C126d.** A line tells its level and its text, whether or not it is coloured; the date has no blanks. -/
theorem C126_line_tells (l l' : Level) (t t' : Bool) (date date' msg msg' : List Char) (hd : ' ' ∉ date) (hd' : ' ' ∉ date') (h : logLine l t date msg = logLine l' t' date' msg') :
    l = l' ∧ t = t' ∧ date = date' ∧ msg = msg' := by
  have e : ∀ (l : Level) (t : Bool) (date msg : List Char), logLine l t date msg = '[' :: date ++ ' ' :: (colorize l.label l.code t ++ ' ' :: ("] ".toList ++ msg)) := by
    intro l t date msg
    have : " ] ".toList = ' ' :: "] ".toList := by decide
    unfold logLine
    rw [this, List.append_assoc, List.append_assoc]
    rfl
  rw [e, e] at h
  obtain ⟨h1, h2⟩ := date_free hd hd' h
  have free : ∀ (l : Level) (t : Bool), ' ' ∉ colorize l.label l.code t := by
    intro l t
    cases l <;> cases t <;> decide
  obtain ⟨h3, h4⟩ := cut_at (free l t) (free l' t') h2
  have same : ∀ (l l' : Level) (t t' : Bool), colorize l.label l.code t = colorize l'.label l'.code t' → l = l' ∧ t = t' := by
    intro l l' t t'
    cases l <;> cases l' <;> cases t <;> cases t' <;> decide
  exact ⟨(same _ _ _ _ h3).1, (same _ _ _ _ h3).2, h1, List.append_cancel_left h4⟩

/-- **C126d.** The word for the level is in the line, whether or not it is coloured, between the date and the text; without colours nothing but blanks and brackets surrounds the three. -/
theorem C126_word_shown (l : Level) (t : Bool) (date msg : List Char) :
    (∃ a b, logLine l t date msg = '[' :: date ++ a ++ Spec.word l ++ b ++ msg) ∧
    logLine l false date msg = '[' :: date ++ [' '] ++ Spec.word l ++ [' ', ']', ' '] ++ msg := by
  have e : l.label = Spec.word l := by cases l <;> decide
  have hb : " ] ".toList = [' ', ']', ' '] := by decide
  unfold logLine colorize
  rw [e, hb]
  constructor
  · cases t
    · exact ⟨[' '], [' ', ']', ' '], by simp⟩
    · exact ⟨' ' :: '\x1b' :: '[' :: l.code ++ ['m'], "\x1b[0m".toList ++ [' ', ']', ' '], by simp⟩
  · simp

/-- **C126e.** The text of a line of the level `debug` tells what it is about. -/
theorem C126_text_tells (errText : Err → List Char) (socket : List Char) (x y : DbgLine) (hx : x.level = .debug) (hy : y.level = .debug)
    (px : ∀ c a, x = .received c a → a.port < 65536) (py : ∀ c a, y = .received c a → a.port < 65536) (qx : ∀ r, x = .failed r → PortOk r) (qy : ∀ r, y = .failed r → PortOk r)
    (h : x.text errText socket = y.text errText socket) : x = y := by
  have rx : ∀ (c : Nat) (a : SockAddr), "Successfully received ".toList <+: (DbgLine.received c a).text errText socket := by
    intro c a
    show _ <+: "Successfully received ".toList ++ showRadix 10 c ++ " bytes from ".toList ++ showSockAddr a
    rw [List.append_assoc, List.append_assoc]
    exact List.prefix_append _ _
  have apart : ∀ i < 13, (refusalHead i).isPrefixOf "Successfully received ".toList = false ∧ "Successfully received ".toList.isPrefixOf (refusalHead i) = false := by decide +kernel
  have ne : ∀ (c : Nat) (a : SockAddr) (r : Refusal), (DbgLine.received c a).text errText socket ≠ (DbgLine.failed r).text errText socket := by
    intro c a r he
    have h1 := rx c a
    rw [he] at h1
    have h2 := head_prefix r
    obtain ⟨a1, a2⟩ := apart _ (nr_lt r)
    rcases Nat.le_total (refusalHead r.nr).length ("Successfully received ".toList).length with hl | hl
    · rw [List.isPrefixOf_iff_prefix.2 (List.prefix_of_prefix_length_le h2 h1 hl)] at a1; cases a1
    · rw [List.isPrefixOf_iff_prefix.2 (List.prefix_of_prefix_length_le h1 h2 hl)] at a2; cases a2
  cases x with
  | plain e => cases hi : e.isInfo <;> simp [DbgLine.level, hi] at hx
  | received c a =>
    cases y with
    | plain e => cases hi : e.isInfo <;> simp [DbgLine.level, hi] at hy
    | failed r => exact absurd h (ne c a r)
    | received c' a' =>
      have e : ∀ (c : Nat) (a : SockAddr), (DbgLine.received c a).text errText socket = "Successfully received ".toList ++ (showRadix 10 c ++ ' ' :: ("bytes from ".toList ++ showSockAddr a)) := by
        intro c a
        have : " bytes from ".toList = ' ' :: "bytes from ".toList := by decide
        show "Successfully received ".toList ++ showRadix 10 c ++ " bytes from ".toList ++ showSockAddr a = _
        rw [this, List.append_assoc, List.append_assoc]
        rfl
      rw [e, e] at h
      obtain ⟨h1, h2⟩ := cut_at (show10_notMem c (by decide)) (show10_notMem c' (by decide)) (List.append_cancel_left h)
      rw [show10_injective h1, sock_inj (px _ _ rfl) (py _ _ rfl) (List.append_cancel_left h2)]
  | failed r =>
    cases y with
    | plain e => cases hi : e.isInfo <;> simp [DbgLine.level, hi] at hy
    | received c a => exact absurd h.symm (ne c a r)
    | failed r' =>
      have h : throttledText r.text 0 = throttledText r'.text 0 := h
      rw [(C124_text_tells_all r r' 0 0 (qx _ rfl) (qy _ rfl) h).1]

/-! ## Nothing is hidden, nothing is held back -/

/-- **C126f.** No failure is hidden (compare `C95_hidden_failure`): with debugging on, the reason of every refusal is written, whatever was written before and when. -/
theorem C126_no_hidden_failure (A : Aead) (s : Server) (dg : List Byte) (src : SockAddr) (rd : Readings) (tl : Nat) (w : World) (x : Refusal) :
    DbgLine.failed x ∈ s.debugLog A true dg src rd tl w ↔ s.refusal A dg src rd w = some x := by
  unfold Server.debugLog
  simp only [Bool.true_and, if_true, List.mem_append, List.mem_map]
  constructor
  · rintro (((h | ⟨_, _, h⟩) | h) | ⟨_, _, h⟩)
    · split at h
      · cases h; rename_i h; cases h
      · cases h
    · cases h
    · cases hq : s.refusal A dg src rd w with
      | none => rw [hq] at h; cases h
      | some y => rw [hq] at h; simp at h; rw [h]
    · cases h
  · intro h
    rw [h]
    exact Or.inl (Or.inr (by simp))

/-- **C126h.** The first line about a datagram says from which address and port it came. It is written before anything is done, so this is also so if the process is killed. -/
theorem C126_source_told (A : Aead) (s : Server) (dg : List Byte) (src : SockAddr) (rd : Readings) (tl : Nat) (w : World) :
    ∃ l, (s.debugLog A true dg src rd tl w).head? = some l ∧ begins l = true ∧ Spec.sender l = some src ∧ l.level = .debug := by
  unfold Server.debugLog
  by_cases h94 : (dg.take MSG_SIZE).length = MSG_SIZE
  · rw [h94, if_pos (by simp)]
    exact ⟨_, rfl, rfl, rfl, rfl⟩
  · have hq : s.refusal A dg src rd w = some (.badSize (dg.take MSG_SIZE).length src) := by
      unfold Server.refusal
      exact if_pos h94
    have hit : s.iterationLog A dg src.ip rd w = [] := by
      unfold Server.iterationLog
      exact if_pos h94
    rw [if_neg (by simpa using h94), hq, hit]
    exact ⟨_, rfl, rfl, rfl, rfl⟩

/-- **C126g.** There is one report for each datagram received: with debugging on, nothing bounds the number of lines but the number of datagrams (compare C22). -/
theorem C126_one_report_each {A : Aead} {s : Server} {w : World} {ts : List (Turn × Nat)} {fs : List Fate} (h : Fates A s w ts fs) : fs.length = Spec.received (ts.map Prod.fst) := by
  induction h with
  | none s w => rfl
  | retry s w t port ts fs h _ ih =>
    rw [List.map_cons]
    unfold Spec.received
    simp only [h]
    omega
  | datagram s s' w w' t port ts dg src rd tl r f fs h _ _ _ ih =>
    rw [List.map_cons, List.length_cons]
    unfold Spec.received
    simp only [h]
    omega

/-! ## Examples -/

/-- A request that is carried out, the same again, garbage, and a second in which nothing arrives. -/
def exTurns : List (Turn × Nat) :=
  let env : Env := ⟨[], [some 2000, some 2000]⟩
  [(⟨false, .datagram exDatagram (.v4 0x0a000001) exReadings 10, env⟩, 5000), (⟨false, .datagram exDatagram (.v4 0x0a000001) exReadings 10, env⟩, 5000),
    (⟨false, .datagram [1, 2, 3] (.v4 0x0a000002) exReadings 11, env⟩, 6000), (⟨false, .retry, env⟩, 0)]

/-- The loop goes on, and the reports say what happened. -/
example : (match (runLoop toyAead exServer (exWorld []) (exTurns.map Prod.fst)).1 with | .running _ => true | _ => false) = true ∧
    (reports ((debugRun toyAead true exServer (exWorld []) exTurns).filter toStdout)).map fateOf =
      [.passedOn, .refused (.replayed [1, 2, 3, 4, 5, 6, 7, 8] 5000 (some 5000)), .refused (.badSize 3 ⟨.v4 0x0a000002, 6000⟩)] ∧
    Spec.received (exTurns.map Prod.fst) = 3 := by decide +kernel

/-- One for which the commander is not there, and one whose counter can not be stored shortly after another failure was reported. -/
example : fateOf ((exServer.debugLog toyAead true exDatagram ⟨.v4 0x0a000001, 5000⟩ exReadings 10 (exWorld [.ok, .ok, .ok, .ok, .ok, .err 0])).filter toStdout) = .lost ∧
    fateOf ((exBusy.debugLog toyAead true exDatagram ⟨.v4 0x0a000001, 5000⟩ exReadings 2000000000 (exWorld [.ok, .err 3])).filter toStdout) = .refused .save := by decide +kernel

example : isDebugLogLevel (some "Debug".toList) = true ∧ isDebugLogLevel (some "debug ".toList) = false ∧ isDebugLogLevel (some "1".toList) = false ∧ isDebugLogLevel none = false := by decide

example : logLine .debug true "2026-01-02T03:04:05.678Z".toList "x".toList = "[2026-01-02T03:04:05.678Z \x1b[36mDEBUG\x1b[0m ] x".toList ∧
    (DbgLine.received 94 ⟨.v4 0x0a000001, 5000⟩).text (fun _ => []) [] = "Successfully received 94 bytes from 10.0.0.1:5000".toList := by decide +kernel

end Ruroco
