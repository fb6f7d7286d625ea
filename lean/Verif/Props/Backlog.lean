import Verif.Spec.Backlog
import Verif.Props.CommanderTime

/-!
# C84: whether a slow or hung commander stalls the server
-/

namespace Ruroco

open Spec (notAcceptedBy waitingAt turn)

/-! ## Connections are accepted in order -/

/-- Accepted in order: what is not accepted by `t` is followed only by such. Latest first. -/
def InOrder (l : List (Option Nat)) : Prop := l.Pairwise (fun later earlier => ∀ t, notAcceptedBy t earlier = true → notAcceptedBy t later = true)

theorem countP_of_inOrder {l : List (Option Nat)} (h : InOrder l) {cap : Nat} (hc : 0 < cap) (t : Nat) :
    l.countP (notAcceptedBy t) < cap ↔ ∀ a, l[cap - 1]? = some a → notAcceptedBy t a = false := by
  induction l generalizing cap with
  | nil => simp [hc]
  | cons x rest ih =>
    unfold InOrder at h
    obtain ⟨hx, hrest⟩ := List.pairwise_cons.mp h
    rw [List.countP_cons]
    cases hxt : notAcceptedBy t x with
    | false =>
      have h0 : rest.countP (notAcceptedBy t) = 0 := by
        rw [List.countP_eq_zero]
        intro y hy hyt
        have := hx y hy t hyt
        rw [hxt] at this; cases this
      simp only [h0, Bool.false_eq_true, if_false]
      constructor
      · intro _ a ha
        cases hn : cap - 1 with
        | zero => rw [hn] at ha; simp at ha; rw [← ha]; exact hxt
        | succ n =>
          rw [hn] at ha
          simp only [List.getElem?_cons_succ] at ha
          have hm := List.mem_of_getElem? ha
          cases hat : notAcceptedBy t a with
          | false => rfl
          | true => have := hx a hm t hat; rw [hxt] at this; cases this
      · intro _; omega
    | true =>
      simp only [if_true]
      cases hn : cap - 1 with
      | zero =>
        simp only [List.getElem?_cons_zero, Option.some.injEq, forall_eq']
        rw [hxt]
        constructor
        · intro h; omega
        · intro h; cases h
      | succ n =>
        simp only [List.getElem?_cons_succ]
        have := ih hrest (cap := n + 1) (by omega)
        simp only [Nat.add_sub_cancel] at this
        rw [← this]
        omega

theorem connectAt_eq {l : List (Option Nat)} (h : InOrder l) {cap now : Nat} (hc : 0 < cap) :
    connectAt cap l now = some now ↔ l.countP (notAcceptedBy now) < cap := by
  rw [countP_of_inOrder h hc]
  unfold connectAt
  cases hl : l[cap - 1]? with
  | none => simp
  | some a =>
    cases a with
    | none => simp [notAcceptedBy]
    | some x => simp only [Option.map_some, Option.some.injEq, notAcceptedBy, Option.all_some, decide_eq_false_iff_not, forall_eq']; omega

theorem connectAt_ge {l : List (Option Nat)} {cap now c : Nat} (h : connectAt cap l now = some c) : now ≤ c := by
  unfold connectAt at h
  split at h
  · cases h; exact Nat.le_refl _
  · rename_i a _
    cases a with
    | none => cases h
    | some x => simp only [Option.map_some, Option.some.injEq] at h; omega

/-- The state kept by `handOver`. -/
structure QueueInv (accepted : List (Option Nat)) (free : Option Nat) : Prop where
  inOrder : InOrder accepted
  free : ∀ a ∈ accepted, ∀ t, notAcceptedBy t a = true → notAcceptedBy t free = true

theorem QueueInv.next {accepted : List (Option Nat)} {free service : Option Nat} (h : QueueInv accepted free) (c : Nat) :
    QueueInv (free.map (max c) :: accepted) ((free.map (max c)).bind (fun t => service.map (t + ·))) := by
  have hup : ∀ t, notAcceptedBy t free = true → notAcceptedBy t (free.map (max c)) = true := by
    intro t ht
    cases free with
    | none => rfl
    | some f => simp only [notAcceptedBy, Option.map_some, Option.all_some, decide_eq_true_eq] at ht ⊢; omega
  have hdown : ∀ t, notAcceptedBy t (free.map (max c)) = true → notAcceptedBy t ((free.map (max c)).bind (fun t => service.map (t + ·))) = true := by
    intro t ht
    cases free with
    | none => rfl
    | some f =>
      cases service with
      | none => rfl
      | some s => simp only [notAcceptedBy, Option.map_some, Option.bind_some, Option.all_some, decide_eq_true_eq] at ht ⊢; omega
  refine ⟨?_, ?_⟩
  · refine List.pairwise_cons.mpr ⟨fun a ha t hat => hup t (h.free a ha t hat), h.inOrder⟩
  · intro a ha t hat
    rcases List.mem_cons.mp ha with rfl | ha
    · exact hdown t hat
    · exact hdown t (hup t (h.free a ha t hat))

/-! ## The server waits exactly when the queue is full -/

theorem handOver_stall {cap : Nat} (hc : 0 < cap) {pre : List Handover} {h : Handover} {post : List Handover} {accepted : List (Option Nat)} {free : Option Nat} {srv : Nat}
    (hinv : QueueInv accepted free) {done : List (Option Nat × Option Nat)} (hdone : done.map (·.2) = accepted.reverse) (hsrv : srv = (done.getLast?.bind (·.1)).getD 0)
    (hlive : ∀ x ∈ (handOver cap accepted free srv (pre ++ h :: post)).take pre.length, x.1 ≠ none) :
    ∃ c a, (handOver cap accepted free srv (pre ++ h :: post))[pre.length]? = some (c, a) ∧
      (c = some (turn (done ++ (handOver cap accepted free srv (pre ++ h :: post)).take pre.length) h) ↔
        waitingAt (turn (done ++ (handOver cap accepted free srv (pre ++ h :: post)).take pre.length) h) (done ++ (handOver cap accepted free srv (pre ++ h :: post)).take pre.length) < cap) := by
  induction pre generalizing accepted free srv done with
  | nil =>
    simp only [List.nil_append, List.length_nil, List.take_zero, List.append_nil]
    have hw : ∀ t, waitingAt t done = accepted.countP (notAcceptedBy t) := by
      intro t
      unfold waitingAt
      rw [hdone]
      exact List.countP_reverse
    have ht : turn done h = max srv h.ready := by unfold turn; rw [hsrv]
    rw [ht, hw]
    have hiff := connectAt_eq hinv.inOrder (cap := cap) (now := max srv h.ready) hc
    unfold handOver
    cases hcn : connectAt cap accepted (max srv h.ready) with
    | none =>
      rw [hcn] at hiff
      exact ⟨none, none, by simp, hiff⟩
    | some c =>
      rw [hcn] at hiff
      exact ⟨some c, free.map (max c), by simp, hiff⟩
  | cons p pre ih =>
    simp only [List.cons_append] at hlive ⊢
    unfold handOver at hlive ⊢
    cases hcn : connectAt cap accepted (max srv p.ready) with
    | none =>
      rw [hcn] at hlive
      simp at hlive
    | some c =>
      rw [hcn] at hlive
      simp only [List.length_cons, List.take_succ_cons, List.mem_cons, forall_eq_or_imp] at hlive ⊢
      have := ih (accepted := free.map (max c) :: accepted) (free := (free.map (max c)).bind (fun t => p.service.map (t + ·))) (srv := c)
        (hinv.next c) (done := done ++ [(some c, free.map (max c))]) (by simp [hdone]) (by simp) hlive.2
      simpa only [List.getElem?_cons_succ, List.append_assoc, List.singleton_append] using this

/-- **C84, the part that holds: an exact account of when the server waits.** Take any request, and assume the server has got that far. It is handed over at once if and only if fewer than `cap`
(the length of the listen queue) of the earlier ones are waiting to be accepted at that instant — whatever the commander does, even if it never accepts anything. *Missing*: the case of a full
queue. -/
theorem C84_no_stall_partial (cap : Nat) (hc : 0 < cap) (pre : List Handover) (h : Handover) (post : List Handover)
    (hlive : ∀ x ∈ (handOverAll cap (pre ++ h :: post)).take pre.length, x.1 ≠ none) :
    ∃ c a, (handOverAll cap (pre ++ h :: post))[pre.length]? = some (c, a) ∧
      (c = some (turn ((handOverAll cap (pre ++ h :: post)).take pre.length) h) ↔
        waitingAt (turn ((handOverAll cap (pre ++ h :: post)).take pre.length) h) ((handOverAll cap (pre ++ h :: post)).take pre.length) < cap) := by
  have := handOver_stall hc (pre := pre) (h := h) (post := post) (accepted := []) (free := some 0) (srv := 0) ⟨List.Pairwise.nil, by simp⟩ (done := []) rfl rfl hlive
  unfold handOverAll
  simpa only [List.nil_append] using this

/-! ## A full queue stalls the server for at most one command -/

/-- Accepted instants, latest first: each at most `D` after the one before it, or no later than `srv`. -/
inductive Close (srv D : Nat) : List Nat → Prop
  | nil : Close srv D []
  | one {a : Nat} : a ≤ srv → Close srv D [a]
  | cons {a b : Nat} {l : List Nat} : (a ≤ srv ∨ a ≤ b + D) → Close srv D (b :: l) → Close srv D (a :: b :: l)

theorem Close.mono {srv srv' D : Nat} {l : List Nat} (h : Close srv D l) (hle : srv ≤ srv') : Close srv' D l := by
  induction h with
  | nil => exact .nil
  | one h => exact .one (by omega)
  | cons h _ ih => exact .cons (by omega) ih

theorem Close.get {srv D : Nat} {l : List Nat} (h : Close srv D l) {n a : Nat} (ha : l[n]? = some a) (hb : ∀ b, l[n + 1]? = some b → b ≤ srv) : a ≤ srv + D := by
  induction h generalizing n with
  | nil => simp at ha
  | one h =>
    cases n with
    | zero => simp at ha; omega
    | succ n => simp at ha
  | cons h _ ih =>
    rename_i a' b' l' _
    cases n with
    | zero =>
      simp at ha
      have := hb b' (by simp)
      omega
    | succ n =>
      simp only [List.getElem?_cons_succ] at ha
      exact ih ha (fun b hb' => hb b (by simpa only [List.getElem?_cons_succ] using hb'))

theorem handOver_bounded {cap D : Nat} (hc : 0 < cap) {pre : List Handover} {h : Handover} {post : List Handover} (hD : ∀ h ∈ pre, ∃ s, h.service = some s ∧ s ≤ D) {accepted : List Nat} {f srv : Nat}
    (hcl : Close srv D accepted) (hcap : ∀ b, accepted[cap]? = some b → b ≤ srv) (hf : ∀ a, accepted.head? = some a → f ≤ a + D) (hf0 : accepted = [] → f ≤ srv)
    {done : List (Option Nat × Option Nat)} (hsrv : srv = (done.getLast?.bind (·.1)).getD 0) :
    ∃ c a, (handOver cap (accepted.map some) (some f) srv (pre ++ h :: post))[pre.length]? = some (some c, some a) ∧
      turn (done ++ (handOver cap (accepted.map some) (some f) srv (pre ++ h :: post)).take pre.length) h ≤ c ∧
      c ≤ turn (done ++ (handOver cap (accepted.map some) (some f) srv (pre ++ h :: post)).take pre.length) h + D := by
  induction pre generalizing accepted f srv done with
  | nil =>
    simp only [List.nil_append, List.length_nil, List.take_zero, List.append_nil]
    have ht : turn done h = max srv h.ready := by unfold turn; rw [hsrv]
    rw [ht]
    unfold handOver
    cases hcn : connectAt cap (accepted.map some) (max srv h.ready) with
    | none =>
      unfold connectAt at hcn
      rw [List.getElem?_map] at hcn
      cases hget : accepted[cap - 1]? with
      | none => rw [hget] at hcn; cases hcn
      | some a => rw [hget] at hcn; cases hcn
    | some c =>
      refine ⟨c, max c f, by simp, connectAt_ge hcn, ?_⟩
      unfold connectAt at hcn
      rw [List.getElem?_map] at hcn
      cases hget : accepted[cap - 1]? with
      | none => rw [hget] at hcn; simp only [Option.map_none, Option.some.injEq] at hcn; omega
      | some a =>
        rw [hget] at hcn
        simp only [Option.map_some, Option.some.injEq] at hcn
        have := hcl.get hget (fun b hb => hcap b (by rwa [Nat.sub_add_cancel hc] at hb))
        omega
  | cons p pre ih =>
    have hsome : ∃ c, connectAt cap (accepted.map some) (max srv p.ready) = some c := by
      unfold connectAt
      rw [List.getElem?_map]
      cases accepted[cap - 1]? with
      | none => exact ⟨_, rfl⟩
      | some a => exact ⟨_, rfl⟩
    obtain ⟨c, hcn⟩ := hsome
    simp only [List.cons_append]
    unfold handOver
    rw [hcn]
    obtain ⟨s, hs, hsD⟩ := hD p (by simp)
    rw [hs]
    simp only [List.length_cons, List.take_succ_cons, Option.map_some, Option.bind_some, List.getElem?_cons_succ]
    have hge := connectAt_ge hcn
    have := ih (fun h' hh => hD h' (by simp [hh])) (accepted := max c f :: accepted) (f := max c f + s) (srv := c) ?_ ?_ ?_ (by simp)
      (done := done ++ [(some c, some (max c f))]) (by simp)
    · simpa only [List.map_cons, List.append_assoc, List.singleton_append] using this
    · cases hacc : accepted with
      | nil =>
        have := hf0 hacc
        refine .one ?_
        omega
      | cons b l =>
        have := hf b (by rw [hacc]; rfl)
        rw [hacc] at hcl
        exact .cons (by omega) (hcl.mono (by omega))
    · intro b hb
      cases hcap' : cap with
      | zero => omega
      | succ n =>
        rw [hcap'] at hb
        simp only [List.getElem?_cons_succ] at hb
        unfold connectAt at hcn
        rw [hcap', Nat.add_sub_cancel, List.getElem?_map, hb] at hcn
        simp only [Option.map_some, Option.some.injEq] at hcn
        omega
    · intro a ha
      simp at ha
      omega

/-- **C84, the bound.** If the commander needs at most `D` for each connection (`C72_waiting_is_bounded` gives such a `D`: the largest time limit of a command and a little more), every request is
handed over, at most `D` after the server got to it, however many are waiting. -/
theorem C84_stall_bounded (cap D : Nat) (hc : 0 < cap) (pre : List Handover) (h : Handover) (post : List Handover) (hD : ∀ h ∈ pre, ∃ s, h.service = some s ∧ s ≤ D) :
    ∃ c a, (handOverAll cap (pre ++ h :: post))[pre.length]? = some (some c, some a) ∧
      turn ((handOverAll cap (pre ++ h :: post)).take pre.length) h ≤ c ∧ c ≤ turn ((handOverAll cap (pre ++ h :: post)).take pre.length) h + D := by
  have := handOver_bounded hc (pre := pre) (h := h) (post := post) hD (accepted := []) (f := 0) (srv := 0) .nil (by simp) (by simp) (by simp) (done := []) rfl
  unfold handOverAll
  simpa only [List.nil_append, List.map_nil] using this

/-- **C84, the bound in terms of the configuration.** The time taken for each connection being that of a commander on a machine that is not overloaded, no command having a time limit above `limit`
seconds: the server never waits longer than `limit` seconds, the 24 s that `C71_read_bounded_partial` allows for reading a request, one polling interval and the delays of the machine. -/
theorem C84_stall_bounded_by_limit (c : Commander) (limit δ ε : Nat) (hlim : ∀ h spec, c.cmds.get h = some spec → spec.timeout ≤ limit) (cap : Nat) (hc : 0 < cap) (pre : List Handover) (h : Handover)
    (post : List Handover) (hserve : ∀ h ∈ pre, ∃ k a t, Unhindered limit δ ε (k.read a).2 k ∧ c.cycleEnd k a = some t ∧ h.service = some (t - a)) :
    ∃ x y, (handOverAll cap (pre ++ h :: post))[pre.length]? = some (some x, some y) ∧
      x ≤ turn ((handOverAll cap (pre ++ h :: post)).take pre.length) h + (24 * (1000000000 + δ) + limit * 1000000000 + 50000000 + 2 * δ + 2 * ε) := by
  obtain ⟨x, y, h1, _, h2⟩ := C84_stall_bounded cap (24 * (1000000000 + δ) + limit * 1000000000 + 50000000 + 2 * δ + 2 * ε) hc pre h post (by
    intro h hh
    obtain ⟨k, a, t, hu, ht, hs⟩ := hserve h hh
    obtain ⟨t', ht', _, hle⟩ := cycle_bound c limit δ ε hlim k a hu
    rw [ht] at ht'
    cases ht'
    exact ⟨_, hs, by omega⟩)
  exact ⟨x, y, h1, h2⟩

/-- Its hypotheses, for a request whose command is killed at its limit of one second. -/
example : ∃ (h : Handover) (k : TimedConn) (a t : Nat), Unhindered 1 0 0 (k.read a).2 k ∧ Commander.cycleEnd { exCommander with cmds := [(1, ⟨"sleep".toList, 1⟩)] } k a = some t ∧ h.service = some (t - a) :=
  ⟨⟨0, some 1000000000⟩, exStuck 23760000000, 23760000000, 24760000000, by decide +kernel, by decide +kernel, rfl⟩

/-! ## ... and a commander that hangs stalls it for good -/

theorem handOver_hung {cap : Nat} (hc : 0 < cap) {hs : List Handover} {n : Nat} {accepted : List (Option Nat)} {srv : Nat} (hlen : cap ≤ hs.length + n) (hn : n < cap)
    (hacc : ∀ i, i < n → accepted[i]? = some none) (h : Handover) (rest : List Handover)
    (hfew : ∀ i, n ≤ i → i < cap → ∀ a, accepted[i]? = some a → ∃ x, a = some x) :
    (handOver cap accepted none srv (hs ++ h :: rest))[hs.length]? = some (none, none) := by
  induction hs generalizing n accepted srv with
  | nil => simp at hlen; omega
  | cons p hs ih =>
    simp only [List.cons_append]
    unfold handOver
    have hsome : ∃ c, connectAt cap accepted (max srv p.ready) = some c := by
      unfold connectAt
      cases hget : accepted[cap - 1]? with
      | none => exact ⟨_, rfl⟩
      | some a =>
        obtain ⟨x, rfl⟩ := hfew (cap - 1) (by omega) (by omega) a hget
        exact ⟨_, rfl⟩
    obtain ⟨c, hcn⟩ := hsome
    rw [hcn]
    simp only [Option.map_none, Option.bind_none, List.length_cons, List.getElem?_cons_succ]
    by_cases hn1 : n + 1 < cap
    · refine ih (n := n + 1) (by simp at hlen ⊢; omega) hn1 ?_ ?_
      · intro i hi
        cases i with
        | zero => rfl
        | succ i => simpa using hacc i (by omega)
      · intro i hi hic a ha
        cases i with
        | zero => omega
        | succ i => exact hfew i (by omega) (by omega) a (by simpa using ha)
    · -- the queue is full now
      have hfull : (none :: accepted)[cap - 1]? = some none := by
        cases hcap : cap - 1 with
        | zero => rfl
        | succ i => simpa using hacc i (by omega)
      have hst : ∀ now, connectAt cap (none :: accepted) now = none := by
        intro now; unfold connectAt; rw [hfull]; rfl
      cases hs with
      | nil =>
        simp only [List.nil_append, List.length_nil]
        unfold handOver
        rw [hst]; rfl
      | cons q hs =>
        simp only [List.cons_append]
        unfold handOver
        rw [hst]
        simp

/-- **C84 refuted: a hung commander stalls the server.** Whatever went before, in whatever state: if the commander never gets done with one connection, the server hands over at most as many
further requests as fit into the queue. At the next request it waits for ever, and deals with nothing that comes later. -/
theorem C84_hung_commander (cap : Nat) (hc : 0 < cap) (accepted : List (Option Nat)) (srv : Nat) (hall : ∀ a ∈ accepted, ∃ x, a = some x) (hs : List Handover) (hlen : cap ≤ hs.length) (h : Handover)
    (rest : List Handover) : (handOver cap accepted none srv (hs ++ h :: rest))[hs.length]? = some (none, none) :=
  handOver_hung hc (n := 0) (by omega) hc (fun _ hi => absurd hi (Nat.not_lt_zero _)) h rest (fun _ _ _ a ha => hall a (List.mem_of_getElem? ha))

/-- A commander that is done with every connection after 10 ms, a queue for two, requests 20 ms apart: none of them waits. -/
example : handOverAll 2 [⟨0, some 10⟩, ⟨20, some 10⟩, ⟨40, some 10⟩, ⟨60, some 10⟩] = [(some 0, some 0), (some 20, some 20), (some 40, some 40), (some 60, some 60)] := by decide +kernel

/-- A queue for two, a command of an hour, four requests within four seconds: the server stands still from second 3 to the end of the hour. -/
theorem C84_stalled_for_an_hour : ∃ hs : List Handover, (∀ h ∈ hs, h.ready ≤ 3000000000) ∧ ((handOverAll 2 hs)[3]?.map (·.1)) = some (some 3600000000000) :=
  ⟨[⟨0, some 3600000000000⟩, ⟨1000000000, some 1⟩, ⟨2000000000, some 1⟩, ⟨3000000000, some 1⟩], by decide +kernel, by decide +kernel⟩

/-- The same with a commander that never gets done: the fourth request and all after it are never handed over. -/
example : handOverAll 2 [⟨0, none⟩, ⟨1, some 1⟩, ⟨2, some 1⟩, ⟨3, some 1⟩, ⟨4, some 1⟩] = [(some 0, some 0), (some 1, none), (some 2, none), (none, none), (none, none)] := by decide +kernel

/-- `C84_no_stall_partial` applies to it: the third request is handed over at once although the commander hangs. -/
example : waitingAt 2 ((handOverAll 2 [⟨0, none⟩, ⟨1, some 1⟩, ⟨2, some 1⟩]).take 2) < 2 := by decide +kernel

end Ruroco
