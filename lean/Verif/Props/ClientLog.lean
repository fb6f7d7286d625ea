import Verif.Spec.ClientLog
import Verif.Props.Client
import Verif.Props.RefusalText
import Verif.Lemmas.ClientOk

/-! # C125: what the client says about a send is true -/

namespace Ruroco

open Spec

/-! ## Reasoning about actions that write lines -/

/-- `Q` holds at the end, however the action ends. -/
def twp (m : Talk α) (w : World) (Q : Out α → World → List ClientLine → Prop) : Prop := Q (m w).1 (m w).2.1 (m w).2.2

theorem twp_mono {m : Talk α} {w : World} {Q R : Out α → World → List ClientLine → Prop} (h : twp m w Q) (hqr : ∀ o w' l, Q o w' l → R o w' l) : twp m w R := hqr _ _ _ h

theorem twp_bind (m : Talk α) (f : α → Talk β) (w : World) (Q : Out β → World → List ClientLine → Prop) :
    twp (m >>= f) w Q ↔ twp m w (fun o w' l => match o with
      | .ok a => twp (f a) w' (fun o' w'' l' => Q o' w'' (l ++ l'))
      | .err e => Q (.err e) w' l
      | .crash => Q .crash w' l) := by
  unfold twp
  simp only [bind, Talk.bind]
  rcases h : m w with ⟨o, w', l⟩
  cases o <;> exact Iff.rfl

theorem twp_pure (a : α) (w : World) (Q : Out α → World → List ClientLine → Prop) : twp (pure a) w Q ↔ Q (.ok a) w [] := Iff.rfl

theorem twp_say (x : ClientLine) (w : World) (Q : Out Unit → World → List ClientLine → Prop) : twp (Talk.say x) w Q ↔ Q (.ok ()) w [x] := Iff.rfl

theorem twp_lift (m : Act α) (w : World) (Q : Out α → World → List ClientLine → Prop) : twp (Talk.lift m) w Q ↔ wp m w (fun o w' => Q o w' []) := Iff.rfl

/-! ## The lines do not change what is done -/

theorem mute_bind (m : Talk α) (f : α → Talk β) : (m >>= f).mute = m.mute >>= fun a => (f a).mute := by
  funext w
  simp only [Talk.mute, bind, Talk.bind, Act.bind]
  rcases m w with ⟨o, w', l⟩
  cases o <;> rfl

theorem mute_lift (m : Act α) : (Talk.lift m).mute = m := rfl
theorem mute_say (x : ClientLine) : (Talk.say x).mute = pure () := rfl
theorem mute_pure (a : α) : (pure a : Talk α).mute = pure a := rfl

theorem pure_bind_act (a : α) (f : α → Act β) : (pure a >>= f) = f a := rfl

theorem bind_congr_act {m : Act α} {f g : α → Act β} (h : ∀ a, f a = g a) : (m >>= f) = (m >>= g) := by rw [funext h]

theorem bind_assoc_act (m : Act α) (f : α → Act β) (g : β → Act γ) : ((m >>= f) >>= g) = (m >>= fun a => f a >>= g) := by
  funext w
  simp only [bind, Act.bind]
  rcases m w with ⟨o, w'⟩
  cases o <;> rfl

/-- The result without the text of the failure. -/
def plain (x : Sender × Except (Err × SendFailure) Unit) : Sender × Except Err Unit :=
  (x.1, match x.2 with | .ok () => .ok () | .error e => .error e.1)

theorem mute_sendData (A : Aead) (hash : List Char → U64) (s : Sender) (a : SockAddr) (rnd : Option (List Byte)) :
    (s.sendDataT A hash a rnd).mute >>= (fun x => pure (plain x)) = s.sendData A hash a rnd := by
  unfold Sender.sendDataT Sender.sendData
  rw [mute_bind, bind_assoc_act, mute_lift]
  refine bind_congr_act fun _ => ?_
  rw [mute_bind, bind_assoc_act, mute_lift]
  refine bind_congr_act fun x => ?_
  obtain ⟨c, r⟩ := x
  cases r with
  | error e => rfl
  | ok u =>
    simp only
    rw [mute_bind, mute_say, bind_assoc_act, pure_bind_act]
    cases he : encode A s.handler rnd (Sender.request hash { s with counter := c } a.ip).serialize with
    | error e => rfl
    | ok bytes =>
      simp only
      rw [mute_bind, bind_assoc_act, mute_lift]
      refine bind_congr_act fun r => ?_
      cases r <;> rfl

theorem mute_sendLoop (A : Aead) (hash : List Char → U64) (rnd : Nat → Option (List Byte)) (s : Sender) (i : Nat) (dsts : List SockAddr) :
    (s.sendLoopT A hash rnd i dsts).mute >>= (fun x => pure (x.1, x.2.length)) = s.sendLoop A hash rnd i dsts := by
  induction dsts generalizing s i with
  | nil => rfl
  | cons a rest ih =>
    unfold Sender.sendLoopT Sender.sendLoop
    rw [mute_bind, bind_assoc_act, mute_lift]
    refine bind_congr_act fun _ => ?_
    rw [mute_bind, bind_assoc_act, ← mute_sendData, bind_assoc_act]
    refine bind_congr_act fun x => ?_
    obtain ⟨s1, r⟩ := x
    rw [pure_bind_act]
    cases r with
    | error e =>
      simp only [plain]
      rw [mute_bind, mute_say, pure_bind_act, mute_bind, mute_lift, bind_assoc_act]
      refine bind_congr_act fun _ => ?_
      rw [mute_bind, ← ih, bind_assoc_act, bind_assoc_act]
      rfl
    | ok u => exact ih s1 (i + 1)

theorem mute_sendToDestinations (A : Aead) (hash : List Char → U64) (rnd : Nat → Option (List Byte)) (s : Sender) (dsts : List SockAddr) :
    (s.sendToDestinationsT A hash rnd dsts).mute = s.sendToDestinations A hash rnd dsts := by
  unfold Sender.sendToDestinationsT Sender.sendToDestinations
  rw [mute_bind, ← mute_sendLoop, bind_assoc_act]
  refine bind_congr_act fun x => ?_
  rw [pure_bind_act]
  simp only
  by_cases hc : dsts ≠ [] ∧ x.2.length = dsts.length
  · rw [if_pos hc, if_pos hc]; rfl
  · rw [if_neg hc, if_neg hc]; rfl

/-- **C125.** The client with its lines does exactly what the client of `Model/Client` does: same result, same effects, same trace. -/
theorem C125_same_client (A : Aead) (hash : List Char → U64) (s : Sender) (env : SendEnv) : (s.sendT A hash env).mute = s.send A hash env := by
  unfold Sender.sendT Sender.send
  rw [mute_bind, mute_lift]
  refine bind_congr_act fun dsts => ?_
  rw [mute_bind, mute_say, pure_bind_act, mute_sendToDestinations]

/-! ## The account of one destination -/

theorem fileEvents_noSocket {P : Path → Prop} {l : List Event} (h : FileEvents P l) : Event.udpSocket ∉ l := fun hm => absurd (h _ hm) (by simp)

/-- Why an attempt failed. -/
def whyOf : Except (Err × SendFailure) Unit → Option SendFailure
  | .ok _ => none
  | .error e => some e.2

theorem sendUdp_socket (a : SockAddr) (c : U128) (bytes : List Byte) (w : World) :
    wp (sendUdp a c bytes) w (fun _ w' => ∃ l, w'.log = w.log ++ .udpSocket :: l) := by
  unfold sendUdp
  rw [wp_bind]
  apply wp_atomicCall <;> intro o1
  · simp only [id]
    rw [wp_bind]
    apply wp_atomicCall <;> intro o2
    · simp only [id]
      apply wp_atomicCall <;> intro o3 <;> exact ⟨_, by simp; rfl⟩
    all_goals exact ⟨_, by simp; rfl⟩
  all_goals exact ⟨[], by simp⟩

/-- What one attempt does and says. -/
structure AttemptT (A : Aead) (hash : List Char → U64) (s : Sender) (a : SockAddr) (w : World) (o : Out (Sender × Except (Err × SendFailure) Unit)) (w' : World) (lines : List ClientLine) : Prop where
  noErr : ∀ e, o ≠ .err e
  killed : o = .crash → (lines = [] ∨ lines = [.connecting a]) ∧ ∃ c la, w'.log = w.log ++ .sendTo a.ip a.port :: la ∧ Attempted A hash s a c false la
  done : ∀ s' r, o = .ok (s', r) → (s' = s ∨ s' = s.bump) ∧ s.counter.count.toNat ≤ s'.counter.count.toNat ∧
    ∃ la, w'.log = w.log ++ .sendTo a.ip a.port :: la ∧ (wire la ≠ [] → s.counter.count.toNat < s'.counter.count.toNat) ∧
      Attempted A hash s a s'.counter.count (whyOf r).isNone la ∧ (∀ why, whyOf r = some why → TrueReason s a s'.counter.count la why) ∧
      account s.cmd.command a (whyOf r) = lines ++ (match whyOf r with | none => [] | some why => [.failed a why])

theorem net_attempted {A : Aead} {hash : List Char → U64} {s : Sender} {a : SockAddr} {rnd : Option (List Byte)} {bytes : List Byte} {P : Path → Prop} {sent : Bool} {l1 l : List Event}
    (henc : encode A s.handler rnd (s.bump.request hash a.ip).serialize = .ok bytes) (h2 : FileEvents P l1) (hl : NetEvents a s.bump.counter.count bytes sent l) {ok : Bool} (hok : ok = true → sent = true) :
    Attempted A hash s a s.bump.counter.count ok (l1 ++ l) := by
  refine ⟨?_, ?_, ?_⟩
  · intro e he
    rcases List.mem_append.1 he with he | he
    · exact (attempted_of_fileEvents (A := A) (hash := hash) (s := s) (a := a) (c := s.bump.counter.count) h2).only e he
    · obtain ⟨n, rfl⟩ := hl.shape
      rcases List.mem_append.1 he with he | he
      · exact Or.inr (Or.inr (Or.inl (List.eq_of_mem_replicate he)))
      · split at he
        · simp at he
          exact Or.inr (Or.inr (Or.inr ⟨bytes, he, encode_isPacket henc⟩))
        · cases he
  · rw [wire_append, wire_fileEvents h2, wire_net hl]
    split <;> simp
  · intro h
    rw [wire_append, wire_fileEvents h2, wire_net hl, if_pos (hok h)]
    rfl

theorem sendDataT_spec (A : Aead) (hash : List Char → U64) (s : Sender) (a : SockAddr) (rnd : Option (List Byte)) (w : World) :
    twp (s.sendDataT A hash a rnd) w (AttemptT A hash s a w) := by
  unfold Sender.sendDataT
  rw [twp_bind, twp_lift, wp_note]
  simp only
  rw [twp_bind, twp_lift]
  unfold Counter.inc
  by_cases hroom : s.counter.count.toNat + 1 < 2 ^ 128
  · have hle : s.counter.count.toNat < s.bump.counter.count.toNat := by rw [bump_count s hroom]; omega
    rw [if_pos hroom]
    simp only
    rw [wp_bind, wp_attempt]
    refine wp_mono (Counter.write_spec _ _) ?_
    intro o w1 h
    have hf : ∃ (P : Path → Prop) (l1 : List Event), w1.log = w.log ++ .sendTo a.ip a.port :: l1 ∧ FileEvents P l1 := by
      obtain ⟨l1, h1, h2⟩ := h.log
      exact ⟨_, l1, by rw [h1]; simp, h2⟩
    clear h
    obtain ⟨P, l1, hlog, h2⟩ := hf
    cases o with
    | crash =>
      show AttemptT A hash s a w .crash w1 []
      exact ⟨nofun, fun _ => ⟨Or.inl rfl, s.bump.counter.count, l1, hlog, attempted_of_fileEvents h2⟩, fun _ _ heq => by cases heq⟩
    | err e =>
      show AttemptT A hash s a w (.ok (s.bump, .error (e, s.counter.incFailure))) w1 []
      refine ⟨nofun, nofun, fun s' r heq => ?_⟩
      cases heq
      have hw : s.counter.incFailure = .counterFile s.counter.path := if_pos hroom
      refine ⟨Or.inr rfl, Nat.le_of_lt hle, l1, hlog, fun _ => hle, attempted_of_fileEvents h2, ?_, ?_⟩
      · intro why hwhy
        cases hwhy
        rw [hw]
        exact ⟨rfl, wire_fileEvents h2, fileEvents_noSocket h2⟩
      · simp only [whyOf, hw]
        rfl
    | ok _ =>
      simp only [wp_pure]
      rw [twp_bind, twp_say]
      simp only
      change twp (match encode A s.handler rnd (s.bump.request hash a.ip).serialize with
        | .error e => pure (s.bump, .error (e, encryptFailure rnd))
        | .ok bytes => Talk.lift (sendUdp a s.bump.counter.count bytes).attempt >>= fun x => match x with
          | .error e => pure (s.bump, .error (e, .socket a))
          | .ok () => Talk.say (.sent s.cmd.command a) >>= fun _ => pure (s.bump, .ok ()) : Talk (Sender × Except (Err × SendFailure) Unit)) w1 _
      cases henc : encode A s.handler rnd (s.bump.request hash a.ip).serialize with
      | error e =>
        refine ⟨nofun, nofun, fun s' r heq => ?_⟩
        cases heq
        refine ⟨Or.inr rfl, Nat.le_of_lt hle, l1, hlog, fun _ => hle, attempted_of_fileEvents h2, ?_, ?_⟩
        · intro why hwhy
          cases hwhy
          cases rnd <;> exact ⟨wire_fileEvents h2, fileEvents_noSocket h2⟩
        · cases rnd <;> rfl
      | ok bytes =>
        simp only
        rw [twp_bind, twp_lift, wp_attempt]
        refine wp_mono (wp_and (sendUdp_spec a s.bump.counter.count bytes w1) (sendUdp_socket a s.bump.counter.count bytes w1)) ?_
        rintro o w2 ⟨⟨_, _, sent, l, hl, hlog2, ho⟩, l', hl'⟩
        have hlog3 : w2.log = w.log ++ .sendTo a.ip a.port :: (l1 ++ l) := by rw [hlog2, hlog]; simp
        have hsock : Event.udpSocket ∈ l1 ++ l := by
          rw [hlog2] at hl'
          rw [List.append_cancel_left hl']
          simp
        rcases ho with rfl | rfl | ⟨rfl, hs⟩
        · exact ⟨nofun, fun _ => ⟨Or.inr rfl, s.bump.counter.count, l1 ++ l, hlog3, net_attempted henc h2 hl nofun⟩, fun _ _ heq => by cases heq⟩
        · refine ⟨nofun, nofun, fun s' r heq => ?_⟩
          cases heq
          refine ⟨Or.inr rfl, Nat.le_of_lt hle, l1 ++ l, hlog3, fun _ => hle, net_attempted henc h2 hl nofun, ?_, rfl⟩
          intro why hwhy
          cases hwhy
          exact ⟨rfl, hsock⟩
        · refine ⟨nofun, nofun, fun s' r heq => ?_⟩
          cases heq
          exact ⟨Or.inr rfl, Nat.le_of_lt hle, l1 ++ l, hlog3, fun _ => hle, net_attempted henc h2 hl (fun _ => hs), (fun why (hwhy : none = some why) => by cases hwhy), rfl⟩
  · rw [if_neg hroom]
    refine ⟨nofun, nofun, fun s' r heq => ?_⟩
    cases heq
    have hw : s.counter.incFailure = .overflow := if_neg hroom
    refine ⟨Or.inl rfl, Nat.le_refl _, [], rfl, by simp [wire], ⟨by simp, by simp [wire], nofun⟩, ?_, ?_⟩
    · intro why hwhy
      cases hwhy
      rw [hw]
      have := s.counter.count.isLt
      exact ⟨by show s.counter.count.toNat = _; omega, rfl⟩
    · simp only [whyOf, hw]
      rfl

/-! ## The account of all destinations -/

theorem TrueReason.congr {s s' : Sender} (hs : s' = s ∨ s' = s.bump) {a : SockAddr} {c : U128} {la : List Event} {why : SendFailure} (h : TrueReason s' a c la why) : TrueReason s a c la why := by
  rcases hs with rfl | rfl
  · exact h
  · cases why <;> exact h

theorem Spec.Reported.congr {A : Aead} {hash : List Char → U64} {s s' : Sender} (hs : s' = s ∨ s' = s.bump) {i prev : Nat} {dsts : List SockAddr}
    {fs : List (Option SendFailure)} {lines : List ClientLine} {l : List Event} (h : Reported A hash s' i prev dsts fs lines l) : Reported A hash s i prev dsts fs lines l := by
  have hd : s'.cmd = s.cmd := by rcases hs with rfl | rfl <;> rfl
  induction h with
  | nil i prev => exact .nil i prev
  | cons hle hlt ha hf h ih =>
    rw [hd]
    exact .cons hle hlt (ha.congr hs) (fun why hw => TrueReason.congr hs (hf why hw)) ih

theorem killed_cons {A : Aead} {hash : List Char → U64} {s s1 : Sender} (hs : s1 = s ∨ s1 = s.bump) {i : Nat} {a : SockAddr} {rest : List SockAddr} {f : Option SendFailure} {lines : List ClientLine} {la l : List Event}
    (hle : s.counter.count.toNat ≤ s1.counter.count.toNat) (hlt : wire la ≠ [] → s.counter.count.toNat < s1.counter.count.toNat)
    (ha : Attempted A hash s a s1.counter.count f.isNone la) (hf : ∀ why, f = some why → TrueReason s a s1.counter.count la why) (h : Killed A hash s1 (i + 1) rest lines l) :
    Killed A hash s i (a :: rest) (account s.cmd.command a f ++ lines)
      ((if 0 < i ∧ 0 < s.cmd.delayMs then [.sleep s.cmd.delayMs] else []) ++ .sendTo a.ip a.port :: la ++ (if f.isNone then [] else [.sendFailed a.ip a.port]) ++ l) := by
  obtain ⟨pre, b, rest', fs, ls, le, c, lb, rfl, hr, hat, hlines, rfl⟩ := h
  have hd : s1.cmd = s.cmd := by rcases hs with rfl | rfl <;> rfl
  refine ⟨a :: pre, b, rest', f :: fs, _, _, c, lb, rfl, .cons hle hlt ha hf (hr.congr hs), hat.congr hs, ?_, ?_⟩
  · rcases hlines with rfl | rfl
    · exact Or.inl rfl
    · exact Or.inr (by simp)
  · have e : i + 1 + pre.length = i + (a :: pre).length := by simp; omega
    rw [hd, e]
    simp [List.append_assoc]

theorem sendLoopT_spec (A : Aead) (hash : List Char → U64) (rnd : Nat → Option (List Byte)) (s : Sender) (i : Nat) (dsts : List SockAddr) (w : World) :
    twp (s.sendLoopT A hash rnd i dsts) w (fun o w' lines => (∀ e, o ≠ .err e) ∧
      (o = .crash → ∃ l, w'.log = w.log ++ l ∧ Killed A hash s i dsts lines l) ∧
      ∀ s' x, o = .ok (s', x) → ∃ fs l, w'.log = w.log ++ l ∧ Reported A hash s i s.counter.count.toNat dsts fs lines l ∧ x = failuresOf dsts fs) := by
  induction dsts generalizing s i w with
  | nil => exact ⟨nofun, nofun, fun s' x h => by cases h; exact ⟨[], [], by simp [Sender.sendLoopT, pure, Talk.pure], .nil _ _, rfl⟩⟩
  | cons a rest ih =>
    unfold Sender.sendLoopT
    rw [twp_bind, twp_lift]
    have hpause : wp (s.pause i) w (fun o w' => o = .ok () ∧
        w'.log = w.log ++ (if 0 < i ∧ 0 < s.cmd.delayMs then [.sleep s.cmd.delayMs] else [])) := by
      unfold Sender.pause
      split
      · exact ⟨rfl, rfl⟩
      · exact ⟨rfl, by simp [pure, Act.pure]⟩
    refine wp_mono hpause ?_
    rintro o w1 ⟨rfl, hlog1⟩
    simp only
    rw [twp_bind]
    refine twp_mono (sendDataT_spec A hash s a (rnd i) w1) ?_
    intro o w2 l1 hat
    cases o with
    | crash =>
      refine ⟨nofun, fun _ => ?_, fun _ _ h => by cases h⟩
      obtain ⟨hl, c, la, hlog2, hatt⟩ := hat.killed rfl
      refine ⟨_, by rw [hlog2, hlog1, List.append_assoc]; rfl, [], a, rest, [], [], [], c, la, rfl, .nil _ _, hatt, ?_, rfl⟩
      rcases hl with rfl | rfl
      · exact Or.inl rfl
      · exact Or.inr rfl
    | err e => exact absurd rfl (hat.noErr e)
    | ok x =>
      obtain ⟨s1, r⟩ := x
      obtain ⟨hs1, hle, la, hlog2, hlt, hatt, htrue, hacc⟩ := hat.done s1 r rfl
      clear hat
      simp only
      cases r with
      | error e =>
        simp only
        rw [twp_bind, twp_say]
        simp only
        rw [twp_bind, twp_lift, wp_note]
        simp only
        rw [twp_bind]
        refine twp_mono (ih s1 (i + 1) _) ?_
        rintro o w3 l3 ⟨hne, hcr, hok⟩
        have hacc' : account s.cmd.command a (some e.2) = l1 ++ [.failed a e.2] := hacc
        cases o with
        | crash =>
          obtain ⟨l, hlog3, hk⟩ := hcr rfl
          have := killed_cons hs1 hle hlt hatt htrue hk (i := i) (rest := rest)
          simp only [whyOf] at this
          rw [hacc'] at this
          have hl : [] ++ (l1 ++ ([ClientLine.failed a e.2] ++ ([] ++ l3))) = (l1 ++ [.failed a e.2]) ++ l3 := by simp
          refine ⟨nofun, fun _ => ?_, fun _ _ h => by cases h⟩
          rw [hl]
          refine ⟨_, ?_, this⟩
          rw [hlog3, hlog2, hlog1]
          simp
        | err e => exact absurd rfl (hne e)
        | ok y =>
          obtain ⟨s2, x2⟩ := y
          obtain ⟨fs, l, hlog3, hrep, hx⟩ := hok s2 x2 rfl
          refine ⟨nofun, nofun, fun s' x h => ?_⟩
          cases h
          have := Spec.Reported.cons (i := i) hle hlt hatt htrue (hrep.congr hs1)
          simp only [whyOf] at this
          rw [hacc'] at this
          have hl : [] ++ (l1 ++ ([ClientLine.failed a e.2] ++ ([] ++ (l3 ++ [])))) = (l1 ++ [.failed a e.2]) ++ l3 := by simp
          rw [← hl] at this
          refine ⟨some e.2 :: fs, _, ?_, this, by rw [hx]; rfl⟩
          show w3.log = _
          rw [hlog3, hlog2, hlog1]
          simp
      | ok u =>
        simp only
        have hacc' : account s.cmd.command a none = l1 := by
          have := hacc
          simpa [whyOf] using this
        refine twp_mono (ih s1 (i + 1) w2) ?_
        rintro o w3 l3 ⟨hne, hcr, hok⟩
        refine ⟨hne, fun h => ?_, fun s' x h => ?_⟩
        · obtain ⟨l, hlog3, hk⟩ := hcr h
          have := killed_cons hs1 hle hlt hatt htrue hk (i := i) (rest := rest)
          simp only [whyOf] at this
          rw [hacc'] at this
          refine ⟨_, ?_, by simpa using this⟩
          rw [hlog3, hlog2, hlog1]
          simp
        · obtain ⟨fs, l, hlog3, hrep, hx⟩ := hok s' x h
          have := Spec.Reported.cons (i := i) hle hlt hatt htrue (hrep.congr hs1)
          simp only [whyOf] at this
          rw [hacc'] at this
          refine ⟨none :: fs, _, ?_, by simpa using this, by rw [hx]; rfl⟩
          rw [hlog3, hlog2, hlog1]
          simp

theorem Spec.Reported.length {A : Aead} {hash : List Char → U64} {s : Sender} {i prev : Nat} {dsts : List SockAddr} {fs : List (Option SendFailure)} {lines : List ClientLine} {l : List Event}
    (h : Reported A hash s i prev dsts fs lines l) : fs.length = dsts.length := by
  induction h with
  | nil => rfl
  | cons _ _ _ _ _ ih => simp [ih]

theorem failuresOf_all {dsts : List SockAddr} {fs : List (Option SendFailure)} (h : fs.length = dsts.length) : (failuresOf dsts fs).length = dsts.length ↔ ∀ f ∈ fs, f ≠ none := by
  have hle : ∀ (dsts : List SockAddr) (fs : List (Option SendFailure)), (failuresOf dsts fs).length ≤ dsts.length := by
    intro dsts
    induction dsts with
    | nil => intro fs; cases fs <;> simp [failuresOf]
    | cons a rest ih =>
      intro fs
      cases fs with
      | nil => simp [failuresOf]
      | cons f fs =>
        have := ih fs
        cases f <;> simp [failuresOf] <;> omega
  induction dsts generalizing fs with
  | nil => cases fs with
    | nil => simp [failuresOf]
    | cons => cases h
  | cons a rest ih =>
    cases fs with
    | nil => cases h
    | cons f fs =>
      have hl : fs.length = rest.length := by simpa using h
      cases f with
      | none =>
        have := hle rest fs
        simp [failuresOf]
        omega
      | some why => simp [failuresOf, ih hl]

/-- **C125.** Unless the process is killed, the client's lines account for every destination, in order, each once: what is said about it, what was done for it and, if it failed, the true reason (`Reported`). At
the end it says that it gave up, and fails, if and only if there was a destination and it has said of each that it could not be sent to. -/
theorem C125_every_destination_reported (A : Aead) (hash : List Char → U64) (rnd : Nat → Option (List Byte)) (s : Sender) (dsts : List SockAddr) (w w' : World) (o : Out Unit) (lines : List ClientLine)
    (h : s.sendToDestinationsT A hash rnd dsts w = (o, w', lines)) (hc : o ≠ .crash) :
    ∃ fs ls l, w'.log = w.log ++ l ∧ Reported A hash s 0 s.counter.count.toNat dsts fs ls l ∧ fs.length = dsts.length ∧
      ((dsts ≠ [] ∧ (∀ f ∈ fs, f ≠ none) ∧ o = .err .notSent ∧ lines = ls ++ [.gaveUp (failuresOf dsts fs)]) ∨
        ((dsts = [] ∨ none ∈ fs) ∧ o = .ok () ∧ lines = ls)) := by
  have hw : twp (s.sendToDestinationsT A hash rnd dsts) w (fun o w' lines => o = .crash ∨
      ∃ fs ls l, w'.log = w.log ++ l ∧ Reported A hash s 0 s.counter.count.toNat dsts fs ls l ∧ fs.length = dsts.length ∧
      ((dsts ≠ [] ∧ (∀ f ∈ fs, f ≠ none) ∧ o = .err .notSent ∧ lines = ls ++ [.gaveUp (failuresOf dsts fs)]) ∨
        ((dsts = [] ∨ none ∈ fs) ∧ o = .ok () ∧ lines = ls))) := by
    unfold Sender.sendToDestinationsT
    rw [twp_bind]
    refine twp_mono (sendLoopT_spec A hash rnd s 0 dsts w) ?_
    rintro o w1 l1 ⟨hne, _, hok⟩
    cases o with
    | crash => exact Or.inl rfl
    | err e => exact absurd rfl (hne e)
    | ok x =>
      obtain ⟨s1, x⟩ := x
      obtain ⟨fs, l, hlog, hrep, hx⟩ := hok s1 x rfl
      right
      have hall := failuresOf_all hrep.length
      rw [← hx] at hall
      simp only
      by_cases hd : dsts ≠ [] ∧ x.length = dsts.length
      · rw [if_pos hd]
        refine ⟨fs, l1, l, hlog, hrep, hrep.length, Or.inl ⟨hd.1, hall.1 hd.2, rfl, ?_⟩⟩
        rw [← hx]
        rfl
      · rw [if_neg hd]
        refine ⟨fs, l1, l, hlog, hrep, hrep.length, Or.inr ⟨?_, rfl, List.append_nil _⟩⟩
        by_cases h0 : dsts = []
        · exact Or.inl h0
        · right
          have : ¬ ∀ f ∈ fs, f ≠ none := fun ha => hd ⟨h0, hall.2 ha⟩
          simpa using this
  unfold twp at hw
  rw [h] at hw
  exact hw.resolve_left hc

/-- **C125.** If the process is killed, the destinations before the one it was busy with are accounted for as if it had not been, and about that one at most the attempt is announced. -/
theorem C125_killed (A : Aead) (hash : List Char → U64) (rnd : Nat → Option (List Byte)) (s : Sender) (dsts : List SockAddr) (w w' : World) (lines : List ClientLine)
    (h : s.sendToDestinationsT A hash rnd dsts w = (.crash, w', lines)) : ∃ l, w'.log = w.log ++ l ∧ Killed A hash s 0 dsts lines l := by
  have hw : twp (s.sendToDestinationsT A hash rnd dsts) w (fun o w' lines => o = .crash → ∃ l, w'.log = w.log ++ l ∧ Killed A hash s 0 dsts lines l) := by
    unfold Sender.sendToDestinationsT
    rw [twp_bind]
    refine twp_mono (sendLoopT_spec A hash rnd s 0 dsts w) ?_
    rintro o w1 l1 ⟨hne, hcr, _⟩
    cases o with
    | crash => exact fun _ => hcr rfl
    | err e => exact absurd rfl (hne e)
    | ok x =>
      simp only
      by_cases hd : dsts ≠ [] ∧ x.2.length = dsts.length
      · rw [if_pos hd]; exact fun hcrash => by cases hcrash
      · rw [if_neg hd]; exact fun hcrash => by cases hcrash
  unfold twp at hw
  rw [h] at hw
  exact hw rfl

/-! ## What a reader may conclude -/

theorem saidSent_append (a b : List ClientLine) : saidSent (a ++ b) = saidSent a ++ saidSent b := by simp [saidSent]

theorem handed_append (a b : List Event) : handed (a ++ b) = handed a ++ handed b := by simp [handed]

theorem saidSent_account_none (command : List Char) (a : SockAddr) : saidSent (account command a none) = [(a.ip, a.port)] := rfl

theorem saidSent_account_some (command : List Char) (a : SockAddr) (why : SendFailure) : saidSent (account command a (some why)) = [] := by cases why <;> rfl

theorem mem_wire {l : List Event} {ip : Ip} {port : Nat} {c : U128} {bytes : List Byte} (h : Event.udp ip port c bytes ∈ l) : c ∈ wire l := by
  unfold wire
  rw [List.mem_filterMap]
  exact ⟨_, h, rfl⟩

theorem of_mem_wire {l : List Event} {c : U128} (h : c ∈ wire l) : ∃ ip port bytes, Event.udp ip port c bytes ∈ l := by
  unfold wire at h
  rw [List.mem_filterMap] at h
  obtain ⟨e, he, hm⟩ := h
  cases e with
  | udp ip port c' bytes => cases hm; exact ⟨ip, port, bytes, he⟩
  | _ => cases hm

theorem mem_handed {l : List Event} {ip : Ip} {port : Nat} : (ip, port) ∈ handed l ↔ ∃ c bytes, Event.udp ip port c bytes ∈ l := by
  unfold handed
  rw [List.mem_filterMap]
  constructor
  · rintro ⟨e, he, hm⟩
    cases e with
    | udp ip port c' bytes => cases hm; exact ⟨_, _, he⟩
    | _ => cases hm
  · rintro ⟨c, bytes, h⟩
    exact ⟨_, h, rfl⟩

theorem handed_of_attempted {A : Aead} {hash : List Char → U64} {s : Sender} {a : SockAddr} {c : U128} {la : List Event} (h : Attempted A hash s a c true la) : (a.ip, a.port) ∈ handed la := by
  have hw := h.sent rfl
  obtain ⟨ip, port, bytes, hm⟩ := of_mem_wire (l := la) (c := c) (by rw [hw]; exact List.mem_singleton.2 rfl)
  rcases h.only _ hm with ⟨_, _, he⟩ | ⟨_, he | he⟩ | he | ⟨b, he, _⟩
  any_goals cases he
  exact mem_handed.2 ⟨_, _, hm⟩

theorem reported_sublist {A : Aead} {hash : List Char → U64} {s : Sender} {i prev : Nat} {dsts : List SockAddr} {fs : List (Option SendFailure)} {lines : List ClientLine} {l : List Event}
    (h : Reported A hash s i prev dsts fs lines l) : (saidSent lines).Sublist (handed l) := by
  induction h with
  | nil => exact List.Sublist.refl _
  | @cons i prev a rest f fs c lines la l hle hlt ha hf h ih =>
    rw [saidSent_append, handed_append]
    refine List.Sublist.append ?_ ih
    cases f with
    | some why => rw [saidSent_account_some]; exact List.nil_sublist _
    | none =>
      rw [saidSent_account_none]
      refine List.singleton_sublist.2 ?_
      have := handed_of_attempted ha
      rw [handed_append, handed_append]
      refine List.mem_append_left _ (List.mem_append_right _ ?_)
      obtain ⟨c', b, hm⟩ := mem_handed.1 this
      exact mem_handed.2 ⟨c', b, List.mem_cons_of_mem _ hm⟩

/-- **C125.** Whatever happens, even if the process is killed at any point: the destinations of which the client has said that it sent to them, in order, are among those a datagram was handed over to, in order. -/
theorem C125_sent_is_true (A : Aead) (hash : List Char → U64) (rnd : Nat → Option (List Byte)) (s : Sender) (dsts : List SockAddr) (w w' : World) (o : Out Unit) (lines : List ClientLine)
    (h : s.sendToDestinationsT A hash rnd dsts w = (o, w', lines)) : ∃ l, w'.log = w.log ++ l ∧ (saidSent lines).Sublist (handed l) := by
  by_cases hc : o = .crash
  · subst hc
    obtain ⟨l, hl, pre, a, rest, fs, ls, le, c, la, _, hr, _, hlines, rfl⟩ := C125_killed A hash rnd s dsts w w' lines h
    refine ⟨_, hl, ?_⟩
    have h1 : saidSent lines = saidSent ls := by
      rcases hlines with rfl | rfl
      · rfl
      · rw [saidSent_append]; exact List.append_nil _
    rw [h1, List.append_assoc, handed_append]
    exact List.Sublist.trans (reported_sublist hr) (List.sublist_append_left _ _)
  · obtain ⟨fs, ls, l, hl, hr, _, hcase⟩ := C125_every_destination_reported A hash rnd s dsts w w' o lines h hc
    refine ⟨l, hl, ?_⟩
    have h1 : saidSent lines = saidSent ls := by
      rcases hcase with ⟨_, _, _, rfl⟩ | ⟨_, _, rfl⟩
      · rw [saidSent_append]; exact List.append_nil _
      · rfl
    rw [h1]
    exact reported_sublist hr

theorem mem_saidSent {lines : List ClientLine} {x : Ip × Nat} : x ∈ saidSent lines ↔ ∃ cmd a, ClientLine.sent cmd a ∈ lines ∧ x = (a.ip, a.port) := by
  unfold saidSent
  rw [List.mem_filterMap]
  constructor
  · rintro ⟨e, he, hm⟩
    cases e with
    | sent cmd a => cases hm; exact ⟨cmd, a, he, rfl⟩
    | _ => cases hm
  · rintro ⟨cmd, a, he, rfl⟩
    exact ⟨_, he, rfl⟩

theorem reported_said {A : Aead} {hash : List Char → U64} {s : Sender} {i prev : Nat} {dsts : List SockAddr} {fs : List (Option SendFailure)} {lines : List ClientLine} {l : List Event}
    (h : Reported A hash s i prev dsts fs lines l) : none ∈ fs ↔ ∃ a, ClientLine.sent s.cmd.command a ∈ lines := by
  induction h with
  | nil => simp
  | @cons i prev a rest f fs c lines la l hle hlt ha hf h ih =>
    cases f with
    | none => simp [account]
    | some why =>
      rw [List.mem_cons]
      constructor
      · rintro (h | h)
        · cases h
        · obtain ⟨b, hb⟩ := ih.1 h
          exact ⟨b, List.mem_append_right _ hb⟩
      · rintro ⟨b, hb⟩
        rcases List.mem_append.1 hb with hb | hb
        · exfalso
          cases why <;> revert hb <;> simp [account, SendFailure.early]
        · exact Or.inr (ih.2 ⟨b, hb⟩)

/-- **C125.** The exit status agrees with the lines: if there was a destination and the process is not killed, it succeeds exactly if it has said of some destination that the command was sent to it. -/
theorem C125_status_agrees (A : Aead) (hash : List Char → U64) (rnd : Nat → Option (List Byte)) (s : Sender) (dsts : List SockAddr) (w w' : World) (o : Out Unit) (lines : List ClientLine)
    (h : s.sendToDestinationsT A hash rnd dsts w = (o, w', lines)) (hc : o ≠ .crash) (hd : dsts ≠ []) : o = .ok () ↔ ∃ a, ClientLine.sent s.cmd.command a ∈ lines := by
  obtain ⟨fs, ls, l, hl, hr, _, hcase⟩ := C125_every_destination_reported A hash rnd s dsts w w' o lines h hc
  have hs := reported_said hr
  rcases hcase with ⟨_, hall, rfl, rfl⟩ | ⟨h1, rfl, rfl⟩
  · constructor
    · exact nofun
    · rintro ⟨a, ha⟩
      rcases List.mem_append.1 ha with ha | ha
      · exact absurd rfl (hall none (hs.2 ⟨a, ha⟩))
      · simp at ha
  · exact ⟨fun _ => hs.1 (h1.resolve_left hd), fun _ => rfl⟩

theorem destinations_ne_nil {v4 v6 : Bool} {r : Option (List SockAddr)} {dsts : List SockAddr} (h : getDestinationIps v4 v6 r = .ok dsts) : dsts ≠ [] := by
  rintro rfl
  unfold getDestinationIps at h
  cases r with
  | none => cases h
  | some all =>
    simp only at h
    split at h
    · split at h <;> cases h
    · split at h
      · split at h <;> cases h
      · split at h <;> cases h

/-- A whole send: without a destination nothing is said about destinations and nothing is done; else the destinations found are announced and then reported on. -/
theorem C125_send_cases (A : Aead) (hash : List Char → U64) (s : Sender) (env : SendEnv) (w : World) :
    (∃ e, getDestinationIps s.cmd.ipv4 s.cmd.ipv6 (env.resolve s.cmd.address) = .error e ∧ s.sendT A hash env w = (.err e, w, [])) ∨
    ∃ dsts o w' lines, getDestinationIps s.cmd.ipv4 s.cmd.ipv6 (env.resolve s.cmd.address) = .ok dsts ∧ dsts ≠ [] ∧ s.sendToDestinationsT A hash env.rnd dsts w = (o, w', lines) ∧
      s.sendT A hash env w = (o, w', .found dsts s.cmd.address :: lines) := by
  unfold Sender.sendT
  cases hd : getDestinationIps s.cmd.ipv4 s.cmd.ipv6 (env.resolve s.cmd.address) with
  | error e => exact Or.inl ⟨e, rfl, rfl⟩
  | ok dsts =>
    right
    rcases hr : s.sendToDestinationsT A hash env.rnd dsts w with ⟨o, w', lines⟩
    refine ⟨dsts, o, w', lines, rfl, destinations_ne_nil hd, hr, ?_⟩
    simp only [bind, Talk.bind, Talk.lift, Act.ofExcept, Act.pure, Talk.say]
    rw [hr]
    rfl

/-- **C125.** The exit status of a send agrees with its lines: unless it is killed, it succeeds exactly if it has said of some destination that the command was sent to it. -/
theorem C125_send_status_agrees (A : Aead) (hash : List Char → U64) (s : Sender) (env : SendEnv) (w w' : World) (o : Out Unit) (lines : List ClientLine) (h : s.sendT A hash env w = (o, w', lines)) (hc : o ≠ .crash) :
    o = .ok () ↔ ∃ a, ClientLine.sent s.cmd.command a ∈ lines := by
  rcases C125_send_cases A hash s env w with ⟨e, _, h2⟩ | ⟨dsts, o', w1, ls, _, hne, hr, h2⟩
  · rw [h2] at h
    cases h
    simp
  · rw [h2] at h
    cases h
    rw [C125_status_agrees A hash env.rnd s dsts w w' o ls hr hc hne]
    simp

/-! ## The texts -/

theorem sock_free {c : Char} (hc : c = ' ' ∨ c = '/') (a : SockAddr) : c ∉ showSockAddr a := by
  have hd : ∀ n, c ∉ showRadix 10 n := fun n => show10_notMem _ (by rcases hc with rfl | rfl <;> decide)
  have h1 : c ∈ " \t\n\r'\"`$\\;&|<>(){}[]*?!#~=%^-+/,@_\x00".toList := by rcases hc with rfl | rfl <;> decide
  have h3 : c ≠ ':' ∧ c ≠ '[' ∧ c ≠ ']' := by rcases hc with rfl | rfl <;> decide
  obtain ⟨ip, port⟩ := a
  have hi : c ∉ showIp ip := fun hm => C47_no_shell_syntax ip _ hm h1
  unfold showSockAddr
  cases ip with
  | v4 x =>
    simp only [List.mem_append, List.mem_cons, not_or]
    exact ⟨hi, h3.1, hd _⟩
  | v6 x =>
    have e : "]:".toList = [']', ':'] := by decide
    simp only [e, List.mem_append, List.mem_cons, not_or, List.not_mem_nil, not_false_eq_true]
    exact ⟨⟨⟨h3.2.1, hi⟩, h3.2.2, h3.1, trivial⟩, hd _⟩

theorem sock_inj {a b : SockAddr} (ha : a.port < 2 ^ 16) (hb : b.port < 2 ^ 16) (h : showSockAddr a = showSockAddr b) : a = b := by
  have h1 := C48_parse_show_socket a ha
  rw [h, C48_parse_show_socket b hb] at h1
  cases h1
  rfl

/-- **C125.** From the text of a line about one destination a reader can tell which kind of line it is and which destination, and for a command said to be sent also which command, whatever characters it has. -/
theorem C125_text_tells (quoted : Path → List Char) (a b : SockAddr) (ha : a.port < 2 ^ 16) (hb : b.port < 2 ^ 16) (cmd cmd' : List Char) (why why' : SendFailure) :
    ((ClientLine.connecting a).text quoted = (ClientLine.connecting b).text quoted → a = b) ∧
    ((ClientLine.sent cmd a).text quoted = (ClientLine.sent cmd' b).text quoted → cmd = cmd' ∧ a = b) ∧
    ((ClientLine.failed a why).text quoted = (ClientLine.failed b why').text quoted → a = b ∧ why.text quoted = why'.text quoted) ∧
    (ClientLine.connecting a).text quoted ≠ (ClientLine.sent cmd b).text quoted ∧
    (ClientLine.connecting a).text quoted ≠ (ClientLine.failed b why).text quoted ∧
    (ClientLine.sent cmd a).text quoted ≠ (ClientLine.failed b why).text quoted := by
  refine ⟨?_, ?_, ?_, ?_, ?_, ?_⟩
  · intro h
    unfold ClientLine.text at h
    exact sock_inj ha hb (List.append_cancel_left (List.append_cancel_right h))
  · intro h
    unfold ClientLine.text at h
    have e : " to udp://".toList = " to udp:/".toList ++ ['/'] := by decide
    rw [e] at h
    simp only [List.append_assoc, List.singleton_append] at h
    simp only [← List.append_assoc] at h
    obtain ⟨h1, h2⟩ := cut_at_last (sock_free (by decide) a) (sock_free (by decide) b) h
    have := sock_inj ha hb h2
    subst this
    exact ⟨List.append_cancel_left (List.append_cancel_right (List.append_cancel_right (List.append_cancel_right h1))), rfl⟩
  · intro h
    unfold ClientLine.text at h
    have e : ": ".toList = [':', ' '] := by decide
    rw [e] at h
    simp only [List.append_assoc] at h
    have h := List.append_cancel_left h
    have e2 : ∀ (x y : List Char), x ++ ([':', ' '] ++ y) = (x ++ [':']) ++ ' ' :: y := fun x y => by simp
    rw [e2, e2] at h
    have hs : ∀ x : SockAddr, ' ' ∉ showSockAddr x ++ [':'] := by
      intro x hm
      rcases List.mem_append.1 hm with hm | hm
      · exact sock_free (by decide) x hm
      · revert hm; decide
    obtain ⟨h1, h2⟩ := cut_at (hs a) (hs b) h
    exact ⟨sock_inj ha hb (List.append_cancel_right h1), h2⟩
  all_goals
    intro h
    unfold ClientLine.text at h
    have := congrArg (List.take 3) h
    revert this
    simp [List.append_assoc]

/-! ## Examples -/

/-- The socket for the first destination cannot be made; the other two are sent to. -/
example : ((exSender 500).sendToDestinationsT toyAead (fun _ => 7) (fun _ => some (List.replicate 12 3)) exDsts (exDisk none [.ok, .ok, .ok, .ok, .ok, .err 0])).2.2 =
    [.connecting ⟨.v4 0x0a000002, 80⟩, .failed ⟨.v4 0x0a000002, 80⟩ (.socket ⟨.v4 0x0a000002, 80⟩), .connecting ⟨.v6 1, 80⟩, .sent "open".toList ⟨.v6 1, 80⟩, .connecting ⟨.v4 0x0a000003, 80⟩,
      .sent "open".toList ⟨.v4 0x0a000003, 80⟩] := by decide +kernel

/-- No randomness: each fails, and the client gives up. -/
example : ((exSender 500).sendToDestinationsT toyAead (fun _ => 7) (fun _ => none) (exDsts.take 1) (exDisk none [])).2.2 =
    [.connecting ⟨.v4 0x0a000002, 80⟩, .failed ⟨.v4 0x0a000002, 80⟩ .noIv, .gaveUp [(⟨.v4 0x0a000002, 80⟩, .noIv)]] := by decide +kernel

/-- The counter file cannot be written. -/
example : ((exSender 500).sendToDestinationsT toyAead (fun _ => 7) (fun _ => none) (exDsts.take 1) (exDisk none [.err 0])).2.2 =
    [.failed ⟨.v4 0x0a000002, 80⟩ (.counterFile "/c/counter".toList), .gaveUp [(⟨.v4 0x0a000002, 80⟩, .counterFile "/c/counter".toList)]] := by decide +kernel

/-- The counter is at its end. -/
example : ((exSender (BitVec.allOnes 128)).sendToDestinationsT toyAead (fun _ => 7) (fun _ => none) (exDsts.take 1) (exDisk none [])).2.2 =
    [.failed ⟨.v4 0x0a000002, 80⟩ .overflow, .gaveUp [(⟨.v4 0x0a000002, 80⟩, .overflow)]] := by decide +kernel

/-- The process is killed right after the first datagram was handed over: it has left, although only the attempt is announced. -/
example : (fun r : Out Unit × World × List ClientLine => (r.1, handed r.2.1.log, r.2.2)) ((exSender 500).sendToDestinationsT toyAead (fun _ => 7) (fun _ => some (List.replicate 12 3)) exDsts
      (exDisk none [.ok, .ok, .ok, .ok, .ok, .ok, .ok, .crash 1])) = (.crash, [(.v4 0x0a000002, 80)], [.connecting ⟨.v4 0x0a000002, 80⟩]) := by decide +kernel

/-- A whole send. -/
example : ((exSender 500).sendT toyAead (fun _ => 7) { keyText := none, resolve := fun _ => some (exDsts.take 1), rnd := fun _ => some (List.replicate 12 3) } (exDisk none [])).2.2 =
    [.found [⟨.v4 0x0a000002, 80⟩] "host:80".toList, .connecting ⟨.v4 0x0a000002, 80⟩, .sent "open".toList ⟨.v4 0x0a000002, 80⟩] := by decide +kernel

/-- The texts. -/
example : (ClientLine.sent "open".toList ⟨.v6 1, 80⟩).text id = "Sent command open from [::]:0 to udp://[::1]:80".toList ∧
    (ClientLine.sent "open".toList ⟨.v4 0x0a000002, 8080⟩).text id = "Sent command open from 0.0.0.0:0 to udp://10.0.0.2:8080".toList := by decide +kernel

example : (ClientLine.failed ⟨.v4 0x0a000002, 80⟩ (.socket ⟨.v4 0x0a000002, 80⟩)).text id = "Could not send to 10.0.0.2:80: Could not connect/send data to 10.0.0.2:80".toList := by decide +kernel

example : (ClientLine.failed ⟨.v4 0x0a000002, 80⟩ .noIv).text id = "Could not send to 10.0.0.2:80: Could not generate IV".toList ∧
    (ClientLine.connecting ⟨.v6 1, 80⟩).text id = "Connecting to [::1]:80...".toList := by decide +kernel

example : (ClientLine.failed ⟨.v4 0x0a000002, 80⟩ (.counterFile "\"/c\"".toList)).text id = "Could not send to 10.0.0.2:80: Could not write counter file \"/c\"".toList := by decide +kernel

example : (ClientLine.gaveUp [(⟨.v6 1, 80⟩, .noIv), (⟨.v6 2, 80⟩, .badLength)]).text id =
    "Error: Could not send to any destination: [::1]:80: Could not generate IV; [::2]:80: ciphertext length mismatch".toList := by decide +kernel

example : (ClientLine.found [⟨.v4 0x0a000002, 80⟩, ⟨.v6 1, 80⟩] "host:80".toList).text id = "Found addresses [10.0.0.2:80, [::1]:80] for host:80".toList := by decide +kernel

example : (SendFailure.overflow).text id = "counter overflow: value has reached u128::MAX (".toList ++ showRadix 10 (2 ^ 128 - 1) ++ ") and cannot be incremented".toList := by decide +kernel

end Ruroco
