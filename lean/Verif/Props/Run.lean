import Verif.Lemmas.Alive
import Verif.Lemmas.History
import Verif.Props.History
import Verif.Model.Run
import Verif.Spec.Terms.Run

/-!
# C18: the receive loop
-/

namespace Ruroco

open Spec (forwards)

theorem handleDatagram_ok {A : Aead} {s : Server} (hb : s.bl.Wf) {dg : List Byte} {src : Ip} {rd : Readings} {tl : Nat} {w : World} (hw : NoCrash w.oracle) :
    ∃ s' r w', s.handleDatagram A dg src rd tl w = (.ok (s', r), w') ∧ s'.bl.Wf := by
  have h1 := handleDatagram_spec A s hb dg src rd tl w
  have h2 := (Alive.handleDatagram A s dg src rd tl w hw).1
  unfold wp at h1
  rcases h : s.handleDatagram A dg src rd tl w with ⟨o, w'⟩
  rw [h] at h1 h2
  simp only at h1 h2
  have h3 := packetCase_of_handled h1
  obtain ⟨o1, _, ⟨rfl, _⟩ | ⟨s1, s2, r, _, rfl, _⟩⟩ := h1
  · exact absurd rfl h2
  · refine ⟨s2, r, w', rfl, ?_⟩
    generalize hs : Out.server (.ok (s2, r)) = os at h3
    have hs : os = some s2 := hs.symm
    cases h3 with
    | nothing _ _ e => cases hs; rw [e]; exact hb
    | saved _ _ _ _ _ _ _ _ _ hx => rw [(hx s2 hs).1]; exact hb
    | acted _ _ _ ha _ _ _ _ _ hx => rw [(hx s2 hs).1]; exact insert_wf_of_acceptable hb ha

/-- **C18a.** No sequence of datagrams, however malformed, and no per-packet failure (any failing system calls) ends the loop: as long as
no shutdown is requested, no fatal receive error occurs and nobody kills the process, the loop is still running after any number of turns,
and every datagram was processed. -/
theorem C18_no_datagram_stops_the_loop (A : Aead) (s : Server) (hb : s.bl.Wf) (w : World) (ts : List Turn)
    (h1 : ∀ t ∈ ts, t.shutdown = false) (h2 : ∀ t ∈ ts, t.recv ≠ .fatal) (h3 : ∀ t ∈ ts, NoCrash t.env.oracle) :
    s.run A w true ts = (.running (ts.foldl (fun x t => turn A x.1 x.2 t) (s, w)).1, (ts.foldl (fun x t => turn A x.1 x.2 t) (s, w)).2) := by
  show runLoop A s w ts = _
  induction ts generalizing s w with
  | nil => rfl
  | cons t ts ih =>
    have hs := h1 t (by simp)
    have hf := h2 t (by simp)
    have rest : ∀ (s : Server) (w : World), s.bl.Wf → _ := fun s w hb =>
      ih s hb w (fun t h => h1 t (by simp [h])) (fun t h => h2 t (by simp [h])) (fun t h => h3 t (by simp [h]))
    unfold runLoop
    rw [if_neg (by simp [hs])]
    rw [List.foldl_cons]
    cases hr : t.recv with
    | fatal => exact absurd hr hf
    | retry => simp only [turn, hr]; exact rest s w hb
    | datagram dg src rd tl =>
      obtain ⟨s', r, w', he, hb'⟩ := handleDatagram_ok (A := A) (s := s) hb (dg := dg) (src := src) (rd := rd) (tl := tl)
        (w := w.withEnv t.env (dg.take MSG_SIZE)) (h3 t (by simp))
      simp only [turn, hr, he]
      exact rest s' w' hb'

/-- **C18b.** The loop ends only for the reasons given: a shutdown request, a fatal receive error, or the process being killed. -/
theorem C18_loop_ends_only_on (A : Aead) (s : Server) (hb : s.bl.Wf) (w : World) (ts : List Turn) (e : RunEnd) (w' : World)
    (h : s.run A w true ts = (e, w')) :
    (e = .stopped → ∃ t ∈ ts, t.shutdown = true) ∧ (e = .failed → ∃ t ∈ ts, t.recv = .fatal) ∧
      (e = .died → ∃ t ∈ ts, ∃ k, .crash k ∈ t.env.oracle) := by
  replace h : runLoop A s w ts = (e, w') := h
  induction ts generalizing s w with
  | nil => cases h; simp
  | cons t ts ih =>
    have lift : ∀ {s : Server} {w : World}, s.bl.Wf → runLoop A s w ts = (e, w') →
        (e = .stopped → ∃ t' ∈ t :: ts, t'.shutdown = true) ∧ (e = .failed → ∃ t' ∈ t :: ts, t'.recv = .fatal) ∧
          (e = .died → ∃ t' ∈ t :: ts, ∃ k, .crash k ∈ t'.env.oracle) := by
      intro s w hb h
      obtain ⟨h1, h2, h3⟩ := ih s hb w h
      exact ⟨fun he => (h1 he).imp fun x hx => ⟨by simp [hx.1], hx.2⟩, fun he => (h2 he).imp fun x hx => ⟨by simp [hx.1], hx.2⟩,
        fun he => (h3 he).imp fun x hx => ⟨by simp [hx.1], hx.2⟩⟩
    unfold runLoop at h
    split at h
    · rename_i hs
      cases h
      exact ⟨fun _ => ⟨t, by simp, hs⟩, by simp, by simp⟩
    · split at h
      · rename_i hr
        cases h
        exact ⟨by simp, fun _ => ⟨t, by simp, hr⟩, by simp⟩
      · exact lift hb h
      · rename_i dg src rd tl hr
        have hspec := handleDatagram_spec A s hb dg src rd tl (w.withEnv t.env (dg.take MSG_SIZE))
        have halive := Alive.handleDatagram A s dg src rd tl (w.withEnv t.env (dg.take MSG_SIZE))
        have hwf := @handleDatagram_ok A s hb dg src rd tl
        unfold wp at hspec
        rcases hd : s.handleDatagram A dg src rd tl (w.withEnv t.env (dg.take MSG_SIZE)) with ⟨o, w1⟩
        rw [hd] at h hspec
        cases o with
        | ok x =>
          have hb' : x.1.bl.Wf := by
            have h3 := packetCase_of_handled hspec
            generalize hs : Out.server (.ok x) = os at h3
            have hs : os = some x.1 := hs.symm
            cases h3 with
            | nothing _ _ e => cases hs; rw [e]; exact hb
            | saved _ _ _ _ _ _ _ _ _ hx => rw [(hx _ hs).1]; exact hb
            | acted _ _ _ ha _ _ _ _ _ hx => rw [(hx _ hs).1]; exact insert_wf_of_acceptable hb ha
          exact lift hb' h
        | err er =>
          obtain ⟨o1, _, ⟨h1, _⟩ | ⟨s1, s2, r, _, h1, _⟩⟩ := hspec <;> cases h1
        | crash =>
          cases h
          refine ⟨by simp, by simp, fun _ => ⟨t, by simp, ?_⟩⟩
          apply Classical.byContradiction
          intro hno
          have hnc : NoCrash t.env.oracle := fun c hc k hk => hno ⟨k, hk ▸ hc⟩
          have := (halive hnc).1
          rw [hd] at this
          exact this rfl

/-- **C18c.** A shutdown request takes effect at the next check of the flag: whatever arrives in that turn or later is neither received nor
processed; the turns before it (including the one during which the request arrived) are processed as usual. -/
theorem C18_shutdown_is_prompt (A : Aead) (s s' : Server) (w w' : World) (before after : List Turn) (t : Turn) (ht : t.shutdown = true)
    (h : s.run A w true before = (.running s', w')) : s.run A w true (before ++ t :: after) = (.stopped, w') := by
  replace h : runLoop A s w before = (.running s', w') := h
  show runLoop A s w (before ++ t :: after) = _
  induction before generalizing s w with
  | nil =>
    cases h
    simp [runLoop, ht]
  | cons b rest ih =>
    rw [List.cons_append]
    unfold runLoop at h ⊢
    split at h
    · cases h
    · rename_i hb
      rw [if_neg hb]
      cases hr : b.recv with
      | fatal => rw [hr] at h; cases h
      | retry => rw [hr] at h; exact ih s w h
      | datagram dg src rd tl =>
        rw [hr] at h
        simp only at h ⊢
        rcases hd : s.handleDatagram A dg src rd tl (w.withEnv b.env (dg.take MSG_SIZE)) with ⟨o, w1⟩
        rw [hd] at h
        cases o with
        | ok x => exact ih _ _ h
        | err e => cases h
        | crash => cases h

/-- Non-vacuity: garbage, a failing save, a time-out and a good datagram do not stop the loop; then a shutdown request does. -/
example :
    let ts : List Turn := [⟨false, .datagram [1, 2, 3] (.v4 7) exReadings 0, ⟨[], []⟩⟩, ⟨false, .retry, ⟨[], []⟩⟩,
      ⟨false, .datagram (exSealed 5000) (.v4 0x0a000001) exReadings 0, ⟨[.err 0], [some 1000, some 1000]⟩⟩,
      ⟨false, .datagram (exSealed 5000) (.v4 0x0a000001) exReadings 0, ⟨[], [some 1000, some 1000]⟩⟩,
      ⟨true, .datagram (exSealed 6000) (.v4 0x0a000001) exReadings 0, ⟨[], [some 1000, some 1000]⟩⟩]
    (forwards (exServer.run toyAead exEmpty true ts).2.log).map (fun x => x.2.1) = [5000] ∧
      (match (exServer.run toyAead exEmpty true ts).1 with | .stopped => true | _ => false) = true := by
  decide +kernel

end Ruroco
