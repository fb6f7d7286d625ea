import Verif.Model.Stop
import Verif.Props.Units
import Verif.Props.Run
import Verif.Spec.Terms.Stop

/-! C94: stopping the server. -/

namespace Ruroco

open Spec (forwards)

/-! ## The timed loop is the loop -/

/-- What the next turns make of the result of one. -/
def Next.cont (A : Aead) (w : World) (us : List Turn) : Next → Option (RunEnd × World)
  | .go s _ => some (runLoop A s w us)
  | .over e => e.untimed.map (·, w)

theorem runLoop_datagram (A : Aead) (s : Server) (w : World) (env : Env) (dg : List Byte) (src : Ip) (rd : Readings) (tl t : Nat) (us : List Turn) :
    (Next.ofOut t (s.handleDatagram A dg src rd tl (w.withEnv env (dg.take MSG_SIZE))).1).cont A (s.handleDatagram A dg src rd tl (w.withEnv env (dg.take MSG_SIZE))).2 us =
      some (runLoop A s w (⟨false, .datagram dg src rd tl, env⟩ :: us)) := by
  unfold runLoop
  simp only [Bool.false_eq_true, if_false]
  rcases s.handleDatagram A dg src rd tl (w.withEnv env (dg.take MSG_SIZE)) with ⟨o, w'⟩
  cases o with
  | ok a => rfl
  | err e => rfl
  | crash => rfl

theorem turn_refines (A : Aead) (σ : Nat) (s : Server) (w : World) (t : Nat) (x : TimedTurn) (hh : (timedTurn A σ s w t x).1.1 ≠ .over .hung) :
    ∃ u, Comes x u ∧ ∀ us, (timedTurn A σ s w t x).1.1.cont A (timedTurn A σ s w t x).1.2 us = some (runLoop A s w (u :: us)) := by
  unfold timedTurn at hh ⊢
  simp only at hh ⊢
  split
  · exact ⟨⟨true, .retry, x.env⟩, (by intro _ _ _ _ h; cases h), fun us => rfl⟩
  rename_i h1
  simp only [if_neg h1] at hh
  split
  · exact ⟨⟨false, .retry, x.env⟩, (by intro _ _ _ _ h; cases h), fun us => rfl⟩
  rename_i h2
  simp only [if_neg h2] at hh
  split
  · exact ⟨⟨false, .retry, x.env⟩, (by intro _ _ _ _ h; cases h), fun us => rfl⟩
  rename_i h3
  simp only [if_neg h3] at hh
  cases hr : x.recv with
  | fatal => exact ⟨⟨false, .fatal, x.env⟩, (by intro _ _ _ _ h; cases h), fun us => rfl⟩
  | retry => exact ⟨⟨false, .retry, x.env⟩, (by intro _ _ _ _ h; cases h), fun us => rfl⟩
  | datagram dg src rd tl =>
    simp only [hr] at hh ⊢
    unfold timedHandle at hh ⊢
    simp only at hh ⊢
    have plain : Comes x ⟨false, .datagram dg src rd tl, x.env⟩ := fun _ _ _ _ h => ⟨by rw [hr]; exact h, .inl rfl⟩
    have cut : x.blocked ≠ some 0 → Comes x ⟨false, .datagram dg src rd tl, interruptedConnect x.env⟩ := fun hb _ _ _ _ h => ⟨by rw [hr]; exact h, .inr ⟨rfl, hb⟩⟩
    split
    · rename_i h4
      simp only [if_pos h4] at hh
      cases hb : x.blocked with
      | some b =>
        simp only
        split
        · rename_i h5
          refine ⟨_, cut ?_, fun us => runLoop_datagram A s w _ dg src rd tl _ us⟩
          rw [hb]; intro h; cases h; omega
        · exact ⟨_, plain, fun us => runLoop_datagram A s w _ dg src rd tl _ us⟩
      | none =>
        simp only [hb] at hh ⊢
        split
        · exact ⟨_, cut (by rw [hb]; simp), fun us => runLoop_datagram A s w _ dg src rd tl _ us⟩
        · rename_i h5
          simp only [if_neg h5] at hh
          exact absurd rfl hh
    · exact ⟨_, plain, fun us => runLoop_datagram A s w _ dg src rd tl _ us⟩

/-- **C94a.** Unless it gets stuck in `connect`, the server with its clock and a signal does what the loop of C18 does with some sequence of turns, one for each of its own: every datagram received is
processed, with the system calls going as they go without a signal, except that a `connect` that has to wait may be interrupted. -/
theorem C94_refines_loop (A : Aead) (σ : Nat) (s : Server) (w : World) (t : Nat) (xs : List TimedTurn) (e : RunEnd) (h : (timedLoop A σ s w t xs).1.1.untimed = some e) :
    ∃ us, runLoop A s w us = (e, (timedLoop A σ s w t xs).1.2) ∧ ∀ u ∈ us, ∃ x ∈ xs, Comes x u := by
  induction xs generalizing s w t with
  | nil => cases h; exact ⟨[], rfl, by simp⟩
  | cons x xs ih =>
    unfold timedLoop at h ⊢
    rcases hx : timedTurn A σ s w t x with ⟨⟨n, w'⟩, r⟩
    rw [hx] at h
    cases n with
    | go s' t' =>
      simp only at h ⊢
      obtain ⟨u, hu, hc⟩ := turn_refines A σ s w t x (by rw [hx]; simp)
      obtain ⟨us, h1, h2⟩ := ih s' w' t' h
      refine ⟨u :: us, ?_, ?_⟩
      · have := hc us
        rw [hx] at this
        simp only [Next.cont, h1, Option.some.injEq] at this
        exact this.symm
      · intro v hv
        rcases List.mem_cons.1 hv with rfl | hv
        · exact ⟨x, by simp, hu⟩
        · obtain ⟨y, hy, hc⟩ := h2 v hv
          exact ⟨y, by simp [hy], hc⟩
    | over e' =>
      simp only at h ⊢
      obtain ⟨u, hu, hc⟩ := turn_refines A σ s w t x (by rw [hx]; intro hc; cases hc; cases h)
      refine ⟨[u], ?_, ?_⟩
      · have := hc []
        rw [hx] at this
        simp only [Next.cont, h, Option.map_some, Option.some.injEq] at this
        exact this.symm
      · intro v hv
        rw [List.mem_singleton] at hv; subst hv
        exact ⟨x, by simp, hu⟩

/-! ## Times -/

def Next.time : Next → Option Nat
  | .go _ t => some t
  | .over e => e.time

theorem ofOut_time (t : Nat) (o : Out (Server × Except Err Unit)) : (Next.ofOut t o).time = some t := by
  cases o with
  | ok a => rfl
  | err e => rfl
  | crash => rfl

theorem turn_time (A : Aead) (σ : Nat) (s : Server) (w : World) (t : Nat) (x : TimedTurn) {G P K : Nat} (hb : Bounds G P K x) :
    ∃ t', (timedTurn A σ s w t x).1.1.time = some t' ∧ (σ ≤ t → t' = t) ∧ (t < σ → t' ≤ σ + G + SECOND + P + K) := by
  obtain ⟨b, hb1, hb2⟩ := hb.connect
  have hg := hb.gap
  have hp := hb.work
  have hm : min x.wait SECOND ≤ SECOND := Nat.min_le_right _ _
  generalize hM : min x.wait SECOND = M at hm
  unfold timedTurn
  simp only [hM]
  split
  · exact ⟨t, rfl, fun _ => rfl, fun h => by omega⟩
  rename_i h1
  split
  · exact ⟨σ, rfl, fun h => by omega, fun h => by omega⟩
  split
  · exact ⟨_, rfl, fun h => by omega, fun h => by omega⟩
  cases hr : x.recv with
  | fatal => exact ⟨_, rfl, fun h => by omega, fun h => by omega⟩
  | retry => exact ⟨_, rfl, fun h => by omega, fun h => by omega⟩
  | datagram dg src rd tl =>
    simp only
    unfold timedHandle
    simp only [hb1]
    split
    · split
      · exact ⟨_, ofOut_time _ _, fun h => by omega, fun h => by omega⟩
      · exact ⟨_, ofOut_time _ _, fun h => by omega, fun h => by omega⟩
    · exact ⟨_, ofOut_time _ _, fun h => by omega, fun h => by omega⟩

/-- **C94b**, as far as it is true. If the commander lets every `connect` return within `K`, the server does not get stuck, and wherever its loop has got to or ended is no later than the signal by
more than one second (the longest wait for a datagram) and the time for one datagram; from the signal on, the next look at the flag ends the loop (`C94_flag_stops`). -/
theorem C94_stops_in_time_partial (A : Aead) (σ : Nat) (s : Server) (w : World) (t : Nat) (xs : List TimedTurn) (G P K : Nat) (hb : ∀ x ∈ xs, Bounds G P K x) (ht : t ≤ σ) :
    ∃ T, (timedLoop A σ s w t xs).1.1.time = some T ∧ T ≤ σ + G + SECOND + P + K := by
  have main : ∀ (s : Server) (w : World) (t : Nat), t ≤ σ + G + SECOND + P + K → ∃ T, (timedLoop A σ s w t xs).1.1.time = some T ∧ T ≤ σ + G + SECOND + P + K := by
    induction xs with
    | nil => exact fun s w t h => ⟨t, rfl, h⟩
    | cons x xs ih =>
      intro s w t h
      obtain ⟨t', h1, h2, h3⟩ := turn_time A σ s w t x (hb x (by simp))
      have ht' : t' ≤ σ + G + SECOND + P + K := by
        by_cases hs : σ ≤ t
        · rw [h2 hs]; exact h
        · exact h3 (by omega)
      unfold timedLoop
      rcases hx : timedTurn A σ s w t x with ⟨⟨n, w'⟩, r⟩
      rw [hx] at h1
      cases n with
      | go s' t'' =>
        cases h1
        exact ih (fun y hy => hb y (by simp [hy])) s' w' _ ht'
      | over e => exact ⟨t', h1, ht'⟩
  exact main s w t (by omega)

/-- A turn begun after the signal ends the loop at once, receiving nothing. -/
theorem C94_flag_stops (A : Aead) (σ : Nat) (s : Server) (w : World) (t : Nat) (x : TimedTurn) (xs : List TimedTurn) (h : σ ≤ t) :
    timedLoop A σ s w t (x :: xs) = ((.stopped t, w), []) := by
  unfold timedLoop timedTurn
  rw [if_pos h]
  rfl

theorem turn_receipt (A : Aead) (σ : Nat) (s : Server) (w : World) (t : Nat) (x : TimedTurn) (r : Nat) (h : (timedTurn A σ s w t x).2 = some r) :
    ¬ σ ≤ t ∧ ∀ T, (timedTurn A σ s w t x).1.1.time = some T → σ ≤ r → σ ≤ T := by
  unfold timedTurn at h ⊢
  simp only at h ⊢
  split at h
  · cases h
  rename_i h1
  rw [if_neg h1]
  split at h
  · cases h
  rename_i h2
  rw [if_neg h2]
  split at h
  · cases h
  rename_i h3
  rw [if_neg h3]
  refine ⟨h1, ?_⟩
  cases hr : x.recv with
  | fatal => rw [hr] at h; cases h
  | retry => rw [hr] at h; cases h
  | datagram dg src rd tl =>
    rw [hr] at h
    simp only [Option.some.injEq] at h ⊢
    rw [h]
    intro T hT hs
    unfold timedHandle at hT
    simp only at hT
    split at hT
    · cases hb : x.blocked with
      | some b =>
        simp only [hb] at hT
        split at hT
        · rw [ofOut_time] at hT; cases hT; omega
        · rw [ofOut_time] at hT; cases hT; omega
      | none =>
        simp only [hb] at hT
        split at hT
        · rw [ofOut_time] at hT; cases hT; omega
        · cases hT
    · rw [ofOut_time] at hT; cases hT; omega

/-- **C94c.** After the signal at most one more datagram is received, whatever arrives. -/
theorem C94_at_most_one_more (A : Aead) (σ : Nat) (s : Server) (w : World) (t : Nat) (xs : List TimedTurn) : ((timedLoop A σ s w t xs).2.filter (fun r => decide (σ ≤ r))).length ≤ 1 := by
  induction xs generalizing s w t with
  | nil => simp [timedLoop]
  | cons x xs ih =>
    have hr := turn_receipt A σ s w t x
    unfold timedLoop
    rcases hx : timedTurn A σ s w t x with ⟨⟨n, w'⟩, r⟩
    rw [hx] at hr
    cases n with
    | over e => cases r <;> simp [List.filter_cons]; split <;> simp
    | go s' t' =>
      simp only
      cases r with
      | none => simpa using ih s' w' t'
      | some r =>
        by_cases hs : σ ≤ r
        · have := (hr r rfl).2 t' rfl hs
          have hnil : (timedLoop A σ s' w' t' xs).2 = [] := by
            cases xs with
            | nil => rfl
            | cons y ys => rw [C94_flag_stops A σ s' w' t' y ys this]
          simp [hnil, hs]
        · simpa [hs] using ih s' w' t'

/-! ## A `connect` that is interrupted -/

/-- A successful run of `m` consumes `n` choices of the operating system. -/
def Drops (n : Nat) (m : Act α) : Prop := ∀ w a w', m w = (.ok a, w') → w'.oracle = w.oracle.drop n

theorem Drops.bind {a b : Nat} {m : Act α} {f : α → Act β} (hm : Drops a m) (hf : ∀ x, Drops b (f x)) : Drops (a + b) (m >>= f) := by
  intro w y w' h
  have h : Act.bind m f w = (.ok y, w') := h
  unfold Act.bind at h
  rcases hx : m w with ⟨o, w1⟩
  rw [hx] at h
  cases o with
  | ok x =>
    have h1 := hm w x w1 hx
    have h2 := hf x w1 y w' h
    rw [h2, h1, List.drop_drop]
  | err e => cases h
  | crash => cases h

theorem Drops.ofExcept (x : Except Err α) : Drops 0 (Act.ofExcept x) := by
  intro w a w' h
  cases x <;> cases h
  rfl

theorem Drops.nowNanos : Drops 0 Ruroco.nowNanos := by
  intro w a w' h
  unfold Ruroco.nowNanos at h
  split at h <;> cases h
  rfl

theorem Drops.syscall {ev : Event} {eff : World → World} {f g : Nat → World → World} (he : ∀ w, (eff w).oracle = w.oracle) : Drops 1 (Ruroco.syscall ev eff f g) := by
  intro w a w' h
  unfold Ruroco.syscall at h
  rcases ho : w.oracle with _ | ⟨c, o⟩
  · simp only [ho] at h; cases h; rw [he]; rfl
  · cases c with
    | ok => simp only [ho] at h; cases h; rw [he]; rfl
    | err k => simp only [ho] at h; cases h
    | crash k => simp only [ho] at h; cases h

theorem Drops.rename (a b : Path) : Drops 1 (Ruroco.rename a b) := by
  unfold Ruroco.rename
  have : Drops (0 + 1) (peek a >>= fun f => match f with
    | none => Act.throw .notFound
    | some f => atomicCall (.file .rename b) (fun w => (w.setEntry b (some f)).setEntry a none)) := by
    refine Drops.bind (fun w x w' h => by cases h; rfl) (fun f => ?_)
    cases f with
    | none => intro w x w' h; cases h
    | some f => exact .syscall (fun _ => rfl)
  exact this

theorem Drops.fsyncDir {p : Path} (hp : dirname p ≠ []) : Drops 1 (Ruroco.fsyncDir p) := by
  unfold Ruroco.fsyncDir
  rw [if_neg hp]
  intro w a w' h
  unfold atomicCall Ruroco.syscall Act.attempt at h
  simp only [Bind.bind, Act.bind] at h
  rcases ho : w.oracle with _ | ⟨c, o⟩
  · simp only [ho] at h; cases h; rfl
  · cases c with
    | ok => simp only [ho] at h; cases h; rfl
    | err k => simp only [ho] at h; cases h; rfl
    | crash k => simp only [ho] at h; cases h

theorem Drops.openTrunc (p : Path) : Drops 1 (Ruroco.openTrunc p) := by
  unfold Ruroco.openTrunc atomicCall
  apply Drops.syscall
  intro w; rfl

theorem Drops.writeAll (p : Path) (bs : List Byte) : Drops 1 (Ruroco.writeAll p bs) := .syscall (fun w => (append_oracle w p bs).1)

theorem Drops.fsync (p : Path) : Drops 1 (Ruroco.fsync p) := by
  unfold Ruroco.fsync atomicCall
  apply Drops.syscall
  intro w
  split <;> rfl

theorem drops_save (bl : Blocklist) (hp : dirname bl.path ≠ []) : Drops 5 bl.save := by
  unfold Blocklist.save writeAtomic writeAtomicWithMode
  refine (Drops.bind (a := 0) (b := 5) (.ofExcept _) (fun _ => ?_) :)
  refine (Drops.bind (a := 0) (b := 5) .nowNanos (fun t => ?_) :)
  refine Drops.bind (a := 1) (b := 4) (.openTrunc _) (fun _ => ?_)
  refine Drops.bind (a := 1) (b := 3) (.writeAll _ _) (fun _ => ?_)
  refine Drops.bind (a := 1) (b := 2) (.fsync _) (fun _ => ?_)
  exact Drops.bind (a := 1) (b := 1) (.rename _ _) (fun _ => .fsyncDir hp)

/-- Forwards nothing. -/
def NotForward (e : Event) : Prop := ∀ dg c bs, e ≠ .forward dg c bs

theorem forwards_logs {w w' : World} (h : Logs NotForward w w') : forwards w'.log = forwards w.log := by
  obtain ⟨l, h1, h2⟩ := h
  rw [h1, forwards_append]
  have : forwards l = [] := by
    unfold Spec.forwards
    rw [List.filterMap_eq_nil_iff]
    intro e he
    have := h2 e he
    cases e <;> first | rfl | exact absurd rfl (this _ _ _)
  rw [this, List.append_nil]

theorem saveOps_notForward (p : Path) : SaveOps NotForward p := ⟨fun _ _ _ _ _ _ h => (by cases h), fun _ _ _ _ _ h => (by cases h), (fun _ _ _ h => (by cases h)), (fun _ _ _ h => (by cases h))⟩

theorem cut_sendCommand (c : U128) (d : CommanderData) (w : World) (o : List Choice) (h : w.oracle = .err 0 :: o) : forwards (sendCommand c d w).2.log = forwards w.log := by
  unfold sendCommand writeToSocket atomicCall syscall Act.attempt
  simp only [bind, Act.bind, pure, Act.pure, h]
  show forwards (w.log ++ [.connect]) = _
  exact forwards_logs (w' := { w with log := w.log ++ [.connect] }) ⟨[.connect], rfl, fun e he _ _ _ hc => by rw [List.mem_singleton] at he; rw [he] at hc; cases hc⟩

theorem cut_validateAndSend (s : Server) (k p : List Byte) (src : Ip) (hp : dirname s.bl.path ≠ []) (w : World) (pre o : List Choice) (hl : pre.length = 5) (ho : w.oracle = pre ++ .err 0 :: o) :
    forwards (s.validateAndSend k p src w).2.log = forwards w.log := by
  unfold Server.validateAndSend
  show forwards (Act.bind _ _ w).2.log = _
  unfold Act.bind
  have h1 : (nowNanos.attempt w).2.oracle = w.oracle ∧ (nowNanos.attempt w).2.log = w.log := by
    unfold nowNanos Act.attempt
    rcases hc : w.clock with _ | ⟨t, c⟩
    · simp only [hc]; exact ⟨trivial, trivial⟩
    · cases t <;> simp only [hc] <;> exact ⟨trivial, trivial⟩
  rcases hn : nowNanos.attempt w with ⟨on, wn⟩
  rw [hn] at h1
  simp only at h1
  rw [← h1.1] at ho
  rw [← h1.2]
  clear h1 hn
  cases on with
  | err e => rfl
  | crash => rfl
  | ok now =>
    simp only
    cases now with
    | error e => rfl
    | ok now =>
      simp only
      cases ClientData.deserialize p with
      | error e => rfl
      | ok d =>
        simp only
        split
        · rfl
        split
        · rfl
        split
        · rfl
        split
        · rfl
        unfold Server.updateBlockList
        simp only [bind, Act.bind, Act.attempt]
        have hdr := drops_save (s.bl.upsert k d.counter) hp
        have hlg := forwards_logs (logs_save (saveOps_notForward (s.bl.upsert k d.counter).path) wn)
        rcases hs : (s.bl.upsert k d.counter).save wn with ⟨o1, w1⟩
        rw [hs] at hlg
        simp only at hlg
        cases o1 with
        | err e => exact hlg
        | crash => exact hlg
        | ok u =>
          have hd := hdr wn u w1 hs
          rw [ho, List.drop_append, hl, List.drop_of_length_le (by omega)] at hd
          simp only [pure, Act.pure]
          have hc := cut_sendCommand d.counter ⟨d.cmdHash, d.srcIp.getD src⟩ w1 o hd
          rcases hsc : sendCommand d.counter ⟨d.cmdHash, d.srcIp.getD src⟩ w1 with ⟨o2, w2⟩
          rw [hsc] at hc
          simp only at hc
          unfold Act.bind
          rw [hsc]
          cases o2 <;> exact hc.trans hlg

/-- **C94d.** A datagram whose `connect` is interrupted is not handed over: the error is logged, and the loop goes on. (For every state file given with its directory.) -/
theorem C94_interrupted_is_not_forwarded (A : Aead) (s : Server) (dg : List Byte) (src : Ip) (rd : Readings) (tl : Nat) (w : World) (env : Env) (hp : dirname s.bl.path ≠ []) :
    forwards (s.handleDatagram A dg src rd tl (w.withEnv (interruptedConnect env) (dg.take MSG_SIZE))).2.log = forwards w.log := by
  have hv : ∀ (s : Server) (k p : List Byte) (src : Ip), dirname s.bl.path ≠ [] → forwards (s.validateAndSend k p src (w.withEnv (interruptedConnect env) (dg.take MSG_SIZE))).2.log = forwards w.log := by
    intro s k p src hp
    refine cut_validateAndSend s k p src hp (w.withEnv (interruptedConnect env) (dg.take MSG_SIZE)) ((env.oracle ++ List.replicate 5 Choice.ok).take 5) (env.oracle.drop 6) (by simp) ?_
    rfl
  have hi : forwards (s.iteration A dg src rd (w.withEnv (interruptedConnect env) (dg.take MSG_SIZE))).2.log = forwards w.log := by
    unfold Server.iteration
    simp only
    split
    · rfl
    · rcases hc : s.rl.check (normalizeIp src) s.cfg.maxPerIp s.cfg.maxGlobal rd with ⟨v, rl⟩
      cases v with
      | error e => rfl
      | ok u =>
        simp only
        cases ({ s with rl } : Server).decryptMsg A (dg.take MSG_SIZE) with
        | error e => rfl
        | ok x => exact hv { s with rl } _ _ _ hp
  unfold Server.handleDatagram
  show forwards (Act.bind _ _ _).2.log = _
  unfold Act.bind
  rcases hx : s.iteration A dg src rd (w.withEnv (interruptedConnect env) (dg.take MSG_SIZE)) with ⟨o, w1⟩
  rw [hx] at hi
  cases o with
  | err e => exact hi
  | crash => exact hi
  | ok x =>
    obtain ⟨s', r⟩ := x
    cases r <;> exact hi

/-- **C94e.** A signal frees a server that waits in `connect`: it stops when it has done with that datagram. -/
theorem C94_signal_frees (A : Aead) (σ : Nat) (s : Server) (hb : s.bl.Wf) (w : World) (t : Nat) (x y : TimedTurn) (ys : List TimedTurn) (dg : List Byte) (src : Ip) (rd : Readings) (tl : Nat)
    (hr : x.recv = .datagram dg src rd tl) (hw : x.wait < SECOND) (hc : t + x.gap + x.wait + x.before < σ) (hbl : x.blocked = none) (hn : NoCrash x.env.oracle)
    (hcon : .connect ∈ (s.handleDatagram A dg src rd tl (w.withEnv x.env (dg.take MSG_SIZE))).2.log.drop w.log.length) :
    (timedLoop A σ s w t (x :: y :: ys)).1.1 = .stopped (σ + x.after) ∧ (timedLoop A σ s w t (x :: y :: ys)).2 = [t + x.gap + x.wait] := by
  have hmin : min x.wait SECOND = x.wait := Nat.min_eq_left (Nat.le_of_lt hw)
  obtain ⟨s', r, w', he, _⟩ := handleDatagram_ok (A := A) (s := s) hb (dg := dg) (src := src) (rd := rd) (tl := tl) (w := w.withEnv (interruptedConnect x.env) (dg.take MSG_SIZE)) (by
    intro c hc k
    have hc : c ∈ (interruptedConnect x.env).oracle := hc
    unfold interruptedConnect at hc
    simp only [List.mem_append, List.mem_cons] at hc
    rcases hc with hc | rfl | hc
    · have := List.mem_of_mem_take hc
      rw [List.mem_append] at this
      rcases this with h | h
      · exact hn c h k
      · rw [List.mem_replicate] at h; rw [h.2]; simp
    · simp
    · exact hn c (List.mem_of_mem_drop hc) k)
  have ht : timedTurn A σ s w t x = ((.go s' (σ + x.after), w'), some (t + x.gap + x.wait)) := by
    unfold timedTurn
    simp only [hmin]
    rw [if_neg (by omega), if_neg (by omega), if_neg (by omega), hr]
    simp only
    unfold timedHandle
    simp only
    rw [if_pos hcon, hbl]
    simp only
    rw [if_pos hc, he]
    rfl
  unfold timedLoop
  rw [ht]
  simp only
  rw [C94_flag_stops A σ s' w' _ y ys (by omega)]
  exact ⟨rfl, rfl⟩

/-! ## What is not true -/

/-- A request arrives after 10 ms; making it safe takes 2 ms, then the queue of the commander is full for ten seconds. -/
def exQueued (c : U128) (blocked : Option Nat) : TimedTurn := ⟨0, 10000000, .datagram (exSealed c) (.v4 0x0a000001) exReadings 0, ⟨[], [some 1000, some 1000]⟩, 2000000, blocked, 1000⟩

/-- **C94, refutation 1.** The documentation says that a datagram that is being processed when the signal comes is finished first. It is not: if it waits for the commander, its counter is used up and
it is not handed over; sent again after the restart it is refused as a replay. -/
theorem C94_request_lost :
    let stop := timedLoop toyAead 5000000000 exServer exEmpty 0 [exQueued 5000 (some 10000000000), exQueued 6000 (some 0)]
    (match stop.1.1 with | .stopped t => t | _ => 0) = 5000001000 ∧ forwards stop.1.2.log = [] ∧
      Spec.onDisk stop.1.2 (blocklistPath "/s".toList) exKey.id = some 5000 ∧
      forwards ([exStart 2000000 [], exPacket 5000 2000100 []].foldl (exec toyAead) ⟨stop.1.2, none⟩).w.log = [] ∧
      -- without the signal it is handed over
      (forwards (timedLoop toyAead 60000000000 exServer exEmpty 0 [exQueued 5000 (some 10000000000)]).1.2.log).map (·.2.1) = [5000] := by
  decide +kernel

/-- **C94, refutation 2.** If the commander hangs and the signal comes while the datagram is being made safe, the server never stops by itself (systemd kills it later). -/
theorem C94_may_never_stop (xs : List TimedTurn) : (timedLoop toyAead 11000000 exServer exEmpty 0 (exQueued 5000 none :: xs)).1.1.time = none := by
  have : (timedTurn toyAead 11000000 exServer exEmpty 0 (exQueued 5000 none)).1.1.time = none := by decide +kernel
  unfold timedLoop
  rcases hx : timedTurn toyAead 11000000 exServer exEmpty 0 (exQueued 5000 none) with ⟨⟨n, w'⟩, r⟩
  rw [hx] at this
  cases n with
  | go s t => cases this
  | over e => exact this

/-- **C94.** The server does not serve without its time-out: if that can not be set, no datagram is received and the start has failed. (Otherwise it might wait for ever without looking at the flag.) -/
theorem C94_no_service_without_timeout (A : Aead) (s : Server) (w : World) (ts : List Turn) :
    (match (s.run A w false ts).1 with | .failed => True | _ => False) ∧ (s.run A w false ts).2.log = w.log := ⟨trivial, rfl⟩

/-! ## The hypotheses are met -/

/-- Two requests and a time-out; the signal comes while nothing is to be done. -/
def exCalm : List TimedTurn := [exQueued 5000 (some 0), ⟨5, 2 * SECOND, .retry, ⟨[], []⟩, 0, some 0, 0⟩, exQueued 6000 (some 7), ⟨5, SECOND, .retry, ⟨[], []⟩, 0, some 0, 0⟩, exQueued 7000 (some 0)]

example : (∀ x ∈ exCalm, Bounds 5 2001000 7 x) ∧
    (match (timedLoop toyAead 1500000000 { exServer with cfg := { exServer.cfg with maxPerIp := 10 } } exEmpty 0 exCalm).1.1 with | .stopped t => t | _ => 0) = 1500000000 ∧
    (forwards (timedLoop toyAead 1500000000 { exServer with cfg := { exServer.cfg with maxPerIp := 10 } } exEmpty 0 exCalm).1.2.log).map (·.2.1) = [5000, 6000] := by
  refine ⟨?_, by decide +kernel, by decide +kernel⟩
  intro x hx
  simp only [exCalm, List.mem_cons, List.not_mem_nil, or_false] at hx
  rcases hx with rfl | rfl | rfl | rfl | rfl <;> exact ⟨by decide, by decide, _, rfl, by decide⟩

/-- A server that waits for a commander that hangs, and is freed by the signal. -/
example : (timedLoop toyAead 5000000000 exServer exEmpty 0 [exQueued 5000 none, exQueued 6000 none]).1.1 = .stopped 5000001000 := by
  refine (C94_signal_frees toyAead 5000000000 exServer exServer_wf exEmpty 0 (exQueued 5000 none) _ [] _ _ _ _ rfl (by decide) (by decide) rfl (by intro c h; cases h) ?_).1
  decide +kernel

end Ruroco
