import Verif.Lemmas.Lost
import Verif.Props.StartExact
import Verif.Spec.Lost

/-!
# C118: losing the replay state lets nothing be executed again

It may be deleted, the setting `blocklist_dir` may be changed, the disk may be replaced: the next start seeds every key with the time of the start. That covers what was executed before, unless a
client's clock was ahead. An older replay state put back covers nothing.
-/

namespace Ruroco

open Spec (forwards onDisk StateGone Restored RateOk)

theorem exists_max (l : List Nat) : ∃ B, (∀ x ∈ l, x ≤ B) ∧ ∀ y, (∀ x ∈ l, x ≤ y) → B ≤ y := by
  induction l with
  | nil => exact ⟨0, nofun, fun _ _ => Nat.zero_le _⟩
  | cons a l ih =>
    obtain ⟨B, h1, h2⟩ := ih
    refine ⟨max a B, ?_, fun y hy => ?_⟩
    · intro x hx
      rcases List.mem_cons.1 hx with rfl | hx
      · exact Nat.le_max_left _ _
      · exact Nat.le_trans (h1 x hx) (Nat.le_max_right _ _)
    · exact Nat.max_le.2 ⟨hy a (by simp), h2 y fun x hx => hy x (List.mem_cons_of_mem _ hx)⟩

/-- **C118 (partial).** A server has run, with any history, and its replay state is lost, or it is told to keep it in another directory. It then runs again, with any history. If no request executed
before the loss is dated later than a start after it, the counters of the commands handed on for one key are strictly increasing over both histories: nothing is executed twice. Missing: requests
dated ahead, which the allowed clock skew lets through, see `C118_executed_again`. -/
theorem C118_nothing_twice_partial (A : Aead) (dir dir' : Path) (w w' : World) (evs evs' : List Ev) (s s' : Sys) (h : Run A dir ⟨w, none⟩ evs s) (hlog : forwards w.log = [])
    (hstat : .statFailed (blocklistPath dir) ∉ s.w.log) (hsync : .power ∈ evs → .dirSyncFailed (blocklistPath dir) ∉ s.w.log)
    (hgone : StateGone s.w w' dir') (h' : Run A dir' ⟨w', none⟩ evs' s')
    (hstat' : .statFailed (blocklistPath dir') ∉ s'.w.log) (hsync' : .power ∈ evs' → .dirSyncFailed (blocklistPath dir') ∉ s'.w.log)
    (hclock : ∀ dg c bs, (dg, c, bs) ∈ forwards s.w.log → ∀ env cfg senv, .start env cfg senv ∈ evs' → ∀ t, some t ∈ env.clock → c.toNat ≤ t.toNat) :
    (forwards s'.w.log).Pairwise (fun a b => a.1.take 8 = b.1.take 8 → a.2.1.toNat < b.2.1.toNat) := by
  have h1 := C07_counters_strictly_increase A dir w evs s h hlog hstat hsync
  obtain ⟨B, hB1, hB2⟩ := exists_max ((forwards s.w.log).map fun x => x.2.1.toNat)
  obtain ⟨pw, p1, _, p2⟩ := pw_cases hsync'
  have hf : Anew pw dir' (acted s.w.log) B [] ⟨w', none⟩ := by
    refine ⟨by simp only [hgone.log, List.append_nil], ?_, by simp [Increasing], nofun⟩
    intro f hm
    have hn : f = none := by
      cases pw <;> simpa [cands, hgone.file, hgone.pending] using hm
    subst hn
    exact ⟨fun _ hx => (by cases hx), fun _ hx => (by cases hx)⟩
  obtain ⟨⟨new, hx⟩, _⟩ := h'.anew hf p1 (fun env cfg senv he t ht => hB2 _ (fun x hx => by
    obtain ⟨⟨dg, c, bs⟩, hy, rfl⟩ := List.mem_map.1 hx
    exact hclock dg c bs hy env cfg senv he t ht)) p2 hstat'
  have hinc : Increasing (acted s'.w.log) := by
    rw [hx.log]
    unfold Increasing
    rw [List.pairwise_append]
    refine ⟨?_, hx.inc, ?_⟩
    · unfold acted
      rw [List.pairwise_map]
      exact h1
    · intro a ha b hb _
      obtain ⟨y, hy, rfl⟩ := List.mem_map.1 ha
      exact Nat.lt_of_le_of_lt (hB1 _ (List.mem_map.2 ⟨y, hy, rfl⟩)) (hx.above b hb)
  unfold Increasing acted at hinc
  rw [List.pairwise_map] at hinc
  exact hinc

/-- **C118, exactly.** After a start without a replay state, a datagram that only its counter can stand against is acted on if and only if it is dated after the start, whether or not it was acted on
before. -/
theorem C118_repeated_iff (A : Aead) (cfg : ServerCfg) (senv : StartEnv) (hord : ∀ m, (senv.order m).Perm m) (w w1 : World) (srv : Server) (hnone : w.fs (blocklistPath cfg.blDir) = none)
    (hstart : Server.create cfg senv w = (.ok srv, w1)) (hstat : .statFailed (blocklistPath cfg.blDir) ∉ w1.log) (hl : srv.bl.map.length < 2 ^ 32) :
    ∃ start, some start ∈ w.clock ∧
      ∀ (k dg : List Byte) (d : ClientData) (src : Ip) (rd : Readings) (rl : RateLimiter) (now t : U128) (cl : List (Option U128)) (ws ws' : World) (os : Out (Server × Except Err Unit)),
        FineIfNew A srv now.toNat src dg k d → RateOk srv src rd rl → AllOk ws → ws.clock = some now :: some t :: cl → srv.iteration A dg src rd ws = (os, ws') →
        (forwards ws'.log ≠ forwards ws.log ↔ start.toNat < d.counter.toNat) := by
  obtain ⟨start, h1, h2⟩ := C17_accepted_iff A cfg senv hord w w1 srv hstart hstat hl
  refine ⟨start, h1, fun k dg d src rd rl now t cl ws ws' os g1 g2 g3 g4 g5 => ?_⟩
  have := h2 k dg d src rd rl now t cl ws ws' os g1 g2 g3 g4 g5
  rwa [show onDisk w (blocklistPath cfg.blDir) k = none by unfold onDisk; rw [hnone]] at this

/-! ## Concrete cases -/

def exLost0 : Sys := [exStart 1000 [], exPacket 5000 1100 [], .kill].foldl (exec toyAead) ⟨exEmpty, none⟩
def exLost1 : World := { exLost0.w with fs := fun _ => none, pend := fun _ => [] }

theorem exLost_gone : StateGone exLost0.w exLost1 "/s".toList := ⟨rfl, rfl, rfl⟩

theorem exLost0_run : Run toyAead "/s".toList ⟨exEmpty, none⟩ [exStart 1000 [], exPacket 5000 1100 [], .kill] exLost0 := by
  refine run_exec _ _ ⟨⟨rfl, rfl⟩, ?_, trivial, trivial⟩
  first | rfl | decide +kernel

/-- **C118 is false for requests dated ahead.** A request dated 5000 is executed at 1100, within the allowed skew. The replay state is lost; the server starts at 2000 and executes the same datagram
again. -/
theorem C118_executed_again :
    ∃ (evs evs' : List Ev) (s s' : Sys) (w' : World), Run toyAead "/s".toList ⟨exEmpty, none⟩ evs s ∧ StateGone s.w w' "/s".toList ∧ Run toyAead "/s".toList ⟨w', none⟩ evs' s' ∧
      .statFailed (blocklistPath "/s".toList) ∉ s'.w.log ∧ (∀ e ∈ evs ++ evs', e ≠ .power) ∧ ∃ dg c bs bs', forwards s'.w.log = [(dg, c, bs), (dg, c, bs')] := by
  refine ⟨_, [exStart 2000 [], exPacket 5000 2100 []], exLost0, _, exLost1, exLost0_run, exLost_gone, run_exec _ _ ?_, ?_, ?_,
    exSealed 5000, 5000, Spec.message exRequest (.v4 0x0a000001), Spec.message exRequest (.v4 0x0a000001), ?_⟩
  · refine ⟨⟨rfl, rfl⟩, ?_, trivial⟩
    first | rfl | decide +kernel
  · decide +kernel
  · intro e he
    simp [exStart, exPacket] at he
    rcases he with rfl | rfl | rfl | rfl | rfl <;> simp
  · decide +kernel

def exBack0 : Sys := [exStart 1000 []].foldl (exec toyAead) ⟨exEmpty, none⟩

/-- The replay state of before the request, put back after it. -/
def exBack1 : World := { exLost0.w with fs := fun q => if q = blocklistPath "/s".toList then exBack0.w.fs q else exLost0.w.fs q }

theorem exBack_restored : Restored exBack0.w exLost0.w exBack1 "/s".toList := by
  obtain ⟨f, hf⟩ : ∃ f, exBack0.w.fs (blocklistPath "/s".toList) = some f := Option.isSome_iff_exists.1 (by decide +kernel)
  refine ⟨f, hf, ?_⟩
  show World.mk _ _ _ _ _ _ _ = World.mk _ _ _ _ _ _ _
  congr 1
  funext q
  by_cases hq : q = blocklistPath "/s".toList
  · rw [if_pos hq, if_pos hq, hq, hf]
  · rw [if_neg hq, if_neg hq]

/-- **C118 is false for a backup.** The replay state of an earlier moment of the same history is put back; the server starts at 9000 and executes a datagram dated 5000 that it had executed before.
Without the backup it would have refused it. -/
theorem C118_backup_executes_again :
    ∃ (evs0 evs evs' : List Ev) (s0 s s' : Sys) (w' : World), Run toyAead "/s".toList ⟨exEmpty, none⟩ evs0 s0 ∧ Run toyAead "/s".toList s0 evs s ∧ Restored s0.w s.w w' "/s".toList ∧
      Run toyAead "/s".toList ⟨w', none⟩ evs' s' ∧ .statFailed (blocklistPath "/s".toList) ∉ s'.w.log ∧
      (∀ e ∈ evs0 ++ evs ++ evs', e ≠ .power) ∧
      (∃ dg c bs bs', forwards s'.w.log = [(dg, c, bs), (dg, c, bs')] ∧ ∀ env cfg senv, .start env cfg senv ∈ evs' → ∀ t, some t ∈ env.clock → c.toNat < t.toNat) := by
  refine ⟨[exStart 1000 []], [exPacket 5000 1100 [], .kill], [exStart 9000 [], exPacket 5000 9100 []], exBack0, exLost0, _, exBack1, run_exec _ _ ?_, run_exec _ _ ?_, exBack_restored, run_exec _ _ ?_, ?_, ?_,
    exSealed 5000, 5000, Spec.message exRequest (.v4 0x0a000001), Spec.message exRequest (.v4 0x0a000001), ?_, ?_⟩
  · exact ⟨⟨rfl, rfl⟩, trivial⟩
  · refine ⟨?_, trivial, trivial⟩
    first | rfl | decide +kernel
  · refine ⟨⟨rfl, rfl⟩, ?_, trivial⟩
    first | rfl | decide +kernel
  · decide +kernel
  · intro e he
    simp [exStart, exPacket] at he
    rcases he with rfl | rfl | rfl | rfl | rfl <;> simp
  · decide +kernel
  · intro env cfg senv he t ht
    simp only [exStart, exPacket, List.mem_cons, List.not_mem_nil, or_false, reduceCtorEq, Ev.start.injEq] at he
    obtain ⟨rfl, _⟩ := he
    simp at ht
    subst ht
    decide

/-- With the start at 9000 the request dated 5000 is not executed again after the loss: the hypotheses of `C118_nothing_twice_partial` are met, here with the replay state in another directory from
then on. -/
example : ∃ s', Run toyAead "/t".toList ⟨exLost1, none⟩ [.start ⟨[], [some 9000, some 9000, some 9000]⟩ { exServer.cfg with maxPerIp := 10, blDir := "/t".toList } ⟨exDir, id, true, 0⟩, exPacket 5000 9100 [],
      exPacket 9050 9100 []] s' ∧ ((forwards s'.w.log).map (·.2.1) = [5000, 9050]) ∧
    (forwards s'.w.log).Pairwise (fun a b => a.1.take 8 = b.1.take 8 → a.2.1.toNat < b.2.1.toNat) := by
  refine ⟨_, run_exec _ _ ?_, by decide +kernel, ?_⟩
  · refine ⟨⟨rfl, rfl⟩, ?_, ?_, trivial⟩ <;> first | rfl | decide +kernel
  · refine C118_nothing_twice_partial toyAead "/s".toList "/t".toList _ exLost1 _ _ exLost0 _ exLost0_run rfl (by decide +kernel) (by simp [exStart, exPacket]) ⟨rfl, rfl, rfl⟩ (run_exec _ _ ?_)
      (by decide +kernel) (by simp [exPacket]) ?_
    · refine ⟨⟨rfl, rfl⟩, ?_, ?_, trivial⟩ <;> first | rfl | decide +kernel
    · intro dg c bs hm env cfg senv he t ht
      have hc : ∀ x ∈ forwards exLost0.w.log, x.2.1.toNat ≤ 9000 := by decide +kernel
      have := hc _ hm
      simp only [exPacket, List.mem_cons, List.not_mem_nil, or_false, reduceCtorEq, Ev.start.injEq] at he
      obtain ⟨rfl, _⟩ := he
      simp at ht
      subst ht
      exact this

end Ruroco
