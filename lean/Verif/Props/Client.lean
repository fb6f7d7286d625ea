import Verif.Lemmas.Client
import Verif.Lemmas.SysOk

/-! # C33, C34, C35: the counter file, trying all destinations, choosing addresses -/

namespace Ruroco

open Spec (wire counterOnDisk IsPacket content Tried Attempted requestFor firstV4 firstV6)

theorem counterOnDisk_of_data {w : World} {p : Path} {c : U128} (h : ∃ f, w.fs p = some f ∧ f.data = beBytes 16 c.toNat) :
    counterOnDisk w p = some c.toNat := by
  obtain ⟨f, h1, h2⟩ := h
  unfold counterOnDisk
  simp only [h1]
  rw [if_pos (by rw [h2]; simp), h2, List.take_of_length_le (by simp), ofBE_beBytes, Nat.mod_eq_of_lt]
  have := c.isLt
  omega

/-! ## C33 -/

/-- **C33**, an existing counter file is never changed by opening it, whatever happens; opening succeeds only if it has at least 16 bytes, and then
takes over exactly the stored value. In particular a truncated file makes it fail. -/
theorem C33_existing_untouched (p : Path) (initial : U128) (w w' : World) (f : File) (o : Out Counter) (hf : w.fs p = some f)
    (h : Counter.createAndInit p initial w = (o, w')) :
    w'.fs p = some f ∧ w'.pend p = w.pend p ∧ ∀ c, o = .ok c → 16 ≤ f.data.length ∧ c.path = p ∧ c.count.toNat = ofBE (f.data.take 16) := by
  have hs := Counter.createAndInit_spec p initial w
  unfold wp at hs
  rw [h] at hs
  have hfs : ∀ {w1}, ReadOnly p w w1 → w1.fs p = some f ∧ w1.pend p = w.pend p := fun hro => ⟨by rw [hro.fs, hf], by rw [hro.pend]⟩
  cases hs with
  | found c w' hro hd =>
    refine ⟨(hfs hro).1, (hfs hro).2, ?_⟩
    intro c' hc'
    cases hc'
    unfold counterOnDisk at hd
    simp only [hf] at hd
    split at hd
    · rename_i h16
      injection hd with hd
      exact ⟨h16, rfl, hd.symm⟩
    · cases hd
  | seeded w1 w' hro habs h => rw [hf] at habs; cases habs
  | seedFailed e w1 w' hro habs h => rw [hf] at habs; cases habs
  | seedCrashed w1 w' hro habs h => rw [hf] at habs; cases habs
  | refused e w' hro he => exact ⟨(hfs hro).1, (hfs hro).2, by intro c hc; cases hc⟩
  | crashed w' hro => exact ⟨(hfs hro).1, (hfs hro).2, by intro c hc; cases hc⟩

/-- **C33**, a missing file is seeded with the given value: afterwards it holds that value, or (after a failure or crash) nothing else. -/
theorem C33_missing_seeded (p : Path) (initial : U128) (w w' : World) (o : Out Counter) (hf : w.fs p = none)
    (h : Counter.createAndInit p initial w = (o, w')) :
    (∀ c, o = .ok c → c = ⟨p, initial⟩ ∧ counterOnDisk w' p = some initial.toNat) ∧ (w'.fs p = none ∨ counterOnDisk w' p = some initial.toNat) := by
  have hs := Counter.createAndInit_spec p initial w
  unfold wp at hs
  rw [h] at hs
  have habs' : ∀ {w1}, ReadOnly p w w1 → w1.fs p = none := fun hro => by rw [hro.fs, hf]
  have hw : ∀ {ow w1 w'}, ReadOnly p w w1 → WroteAtomic p (beBytes 16 initial.toNat) none ow w1 w' →
      (ow = .ok () → counterOnDisk w' p = some initial.toNat) ∧ (w'.fs p = none ∨ counterOnDisk w' p = some initial.toNat) := by
    intro ow w1 w' hro hw
    rcases hw.result with ⟨h1, _, h3⟩ | ⟨⟨f, h1, h2, _⟩, _⟩
    · exact ⟨fun ho => absurd ho h3, Or.inl (by rw [h1, habs' hro])⟩
    · have := counterOnDisk_of_data ⟨f, h1, h2⟩
      exact ⟨fun _ => this, Or.inr this⟩
  cases hs with
  | found c w' hro hd =>
    unfold counterOnDisk at hd
    rw [hf] at hd
    cases hd
  | seeded w1 w' hro habs h =>
    exact ⟨fun c hc => by cases hc; exact ⟨rfl, (hw hro h).1 rfl⟩, (hw hro h).2⟩
  | seedFailed e w1 w' hro habs h => exact ⟨fun c hc => (by cases hc), (hw hro h).2⟩
  | seedCrashed w1 w' hro habs h => exact ⟨fun c hc => (by cases hc), (hw hro h).2⟩
  | refused e w' hro he => exact ⟨fun c hc => (by cases hc), Or.inl (habs' hro)⟩
  | crashed w' hro => exact ⟨fun c hc => (by cases hc), Or.inl (habs' hro)⟩

/-- **C33**, the value given to a missing file by a `send` is the current time. -/
theorem C33_seed_is_now (dir : Path) (cmd : SendCmd) (env : SendEnv) (w w' : World) (s : Sender) (t : U128) (rest : List (Option U128))
    (hclk : w.clock = some t :: rest) (hf : w.fs (counterPath dir) = none) (h : Sender.create dir cmd env w = (.ok s, w')) :
    s.counter = ⟨counterPath dir, t⟩ ∧ counterOnDisk w' (counterPath dir) = some t.toNat := by
  have hw : wp (Sender.create dir cmd env) w (fun o w' => ∀ s, o = .ok s → s.counter = ⟨counterPath dir, t⟩ ∧ counterOnDisk w' (counterPath dir) = some t.toNat) := by
    unfold Sender.create
    rw [wp_bind]
    cases ensurePort cmd.address DEFAULT_PORT with
    | error e => intro s hs; cases hs
    | ok address =>
      rw [wp_ofExcept]
      simp only
      rw [wp_bind]
      cases parseIpOption cmd.ip with
      | error e => intro s hs; cases hs
      | ok srcIp =>
        rw [wp_ofExcept]
        simp only
        cases env.keyText with
        | none => intro s hs; cases hs
        | some key =>
          simp only
          rw [wp_bind]
          cases CryptoHandler.create (trim key) with
          | error e => intro s hs; cases hs
          | ok handler =>
            rw [wp_ofExcept]
            simp only
            rw [wp_bind, wp_nowNanos_some (h := hclk)]
            simp only
            rw [wp_bind]
            rcases hc : Counter.createAndInit (counterPath dir) t { w with clock := rest } with ⟨o, w1⟩
            have := C33_missing_seeded (counterPath dir) t { w with clock := rest } w1 o hf hc
            unfold wp
            rw [hc]
            cases o with
            | ok c =>
              intro s hs
              cases hs
              obtain ⟨h1, h2⟩ := this.1 c rfl
              exact ⟨h1, h2⟩
            | err e => intro s hs; cases hs
            | crash => intro s hs; cases hs
  unfold wp at hw
  rw [h] at hw
  exact hw s rfl

/-- **C33**, a counter at its maximum is refused and nothing is written; otherwise the next value is exactly one more. -/
theorem C33_no_wrap (c : Counter) (w : World) :
    (c.count.toNat = 2 ^ 128 - 1 → c.inc w = (.ok (c, .error .overflow), w)) ∧
    (∀ c' r w', c.inc w = (.ok (c', r), w') → r = .ok () → c'.count.toNat = c.count.toNat + 1 ∧ counterOnDisk w' c.path = some c'.count.toNat) := by
  constructor
  · intro h
    unfold Counter.inc
    rw [if_neg (by omega)]
    rfl
  · intro c' r w' h hr
    subst hr
    unfold Counter.inc at h
    by_cases hroom : c.count.toNat + 1 < 2 ^ 128
    · rw [if_pos hroom] at h
      have hw : wp (do let r ← (Counter.write { c with count := c.count + 1 }).attempt; pure (({ c with count := c.count + 1 } : Counter), r)) w
          (fun o w' => ∀ c' , o = .ok (c', .ok ()) → c'.count.toNat = c.count.toNat + 1 ∧ counterOnDisk w' c.path = some c'.count.toNat) := by
        rw [wp_bind, wp_attempt]
        refine wp_mono (Counter.write_spec _ w) ?_
        intro o w1 hw
        cases o with
        | crash => intro c' hc; cases hc
        | err e => intro c' hc; cases hc
        | ok _ =>
          intro c' hc
          cases hc
          refine ⟨?_, ?_⟩
          · simp only [BitVec.toNat_add]
            rw [Nat.mod_eq_of_lt]
            · rfl
            · simpa using hroom
          · rcases hw.result with ⟨_, _, h3⟩ | ⟨⟨f, h1, h2, _⟩, _⟩
            · exact absurd rfl h3
            · exact counterOnDisk_of_data ⟨f, h1, h2⟩
      unfold wp at hw
      rw [h] at hw
      exact hw c' rfl
    · rw [if_neg hroom] at h
      cases h

/-- **C33**, reseeding sets exactly the given value; on failure the file is as before or has that value. -/
theorem C33_reseed (p : Path) (v : U128) (w w' : World) (o : Out Unit) (h : Counter.reseed p v w = (o, w')) :
    (o = .ok () → counterOnDisk w' p = some v.toNat) ∧ (w'.fs p = w.fs p ∨ counterOnDisk w' p = some v.toNat) := by
  have hs := Counter.write_spec ⟨p, v⟩ w
  unfold wp at hs
  rw [show Counter.write ⟨p, v⟩ w = (o, w') from h] at hs
  rcases hs.result with ⟨h1, _, h3⟩ | ⟨⟨f, h1, h2, _⟩, _⟩
  · exact ⟨fun ho => absurd ho h3, Or.inl h1⟩
  · have := counterOnDisk_of_data ⟨f, h1, h2⟩
    exact ⟨fun _ => this, Or.inr this⟩

/-! ## C34 -/

theorem wire_append (a b : List Event) : wire (a ++ b) = wire a ++ wire b := by simp [wire]

theorem wire_fileEvents {P : Path → Prop} {l : List Event} (h : FileEvents P l) : wire l = [] := by
  unfold wire
  rw [List.filterMap_eq_nil_iff]
  intro e he
  have := h e he
  cases e <;> first | rfl | exact absurd this (by simp)

theorem wire_net {a : SockAddr} {c : U128} {bytes : List Byte} {sent : Bool} {l : List Event} (h : NetEvents a c bytes sent l) :
    wire l = if sent then [c] else [] := by
  obtain ⟨n, rfl⟩ := h.shape
  rw [wire_append]
  have : wire (List.replicate n Event.udpSocket) = [] := by
    unfold wire
    rw [List.filterMap_eq_nil_iff]
    intro e he
    rw [List.eq_of_mem_replicate he]
  rw [this]
  cases sent <;> rfl

theorem attempted_of_fileEvents {A : Aead} {hash : List Char → U64} {s : Sender} {a : SockAddr} {c : U128} {P : Path → Prop} {l : List Event}
    (h : FileEvents P l) : Attempted A hash s a c false l := by
  refine ⟨?_, by simp [wire_fileEvents h], nofun⟩
  intro e he
  have := h e he
  cases e with
  | file op p => exact Or.inl ⟨op, p, rfl⟩
  | statFailed p => exact Or.inr (Or.inl ⟨p, Or.inr rfl⟩)
  | dirSyncFailed p => exact Or.inr (Or.inl ⟨p, Or.inl rfl⟩)
  | _ => exact absurd this (by simp)

theorem encode_isPacket {A : Aead} {h : CryptoHandler} {rnd : Option (List Byte)} {d : ClientData} {bytes : List Byte}
    (he : encode A h rnd d.serialize = .ok bytes) : IsPacket A h d bytes := by
  cases rnd with
  | none => cases he
  | some iv => exact ⟨iv, he⟩

/-- Whether an attempt succeeded. -/
def succeeded (r : Except Err Unit) : Bool := match r with
  | .ok _ => true
  | .error _ => false

/-- An attempt in terms of the trace. -/
theorem attempt_trace {A : Aead} {hash : List Char → U64} {s s' : Sender} {a : SockAddr} {rnd : Option (List Byte)} {w w' : World}
    {r : Except Err Unit} (h : Attempt A hash s a rnd w (.ok (s', r)) w') :
    (s' = s ∨ s' = s.bump) ∧ s.counter.count.toNat ≤ s'.counter.count.toNat ∧
    ∃ la, w'.log = w.log ++ .sendTo a.ip a.port :: la ∧ (wire la ≠ [] → s.counter.count.toNat < s'.counter.count.toNat) ∧
      Attempted A hash s a s'.counter.count (succeeded r) la := by
  generalize ho : (Out.ok (s', r)) = o at h
  cases h with
  | overflow hroom w' hfs hpend hlog =>
    cases ho
    exact ⟨Or.inl rfl, Nat.le_refl _, [], hlog, by simp [wire], ⟨by simp, by simp [wire], nofun⟩⟩
  | writeFailed hroom e w' h =>
    cases ho
    obtain ⟨l, h1, h2⟩ := h.log
    exact ⟨Or.inr rfl, by rw [bump_count s hroom]; omega, l, by rw [h1]; simp, by simp [wire_fileEvents h2], attempted_of_fileEvents h2⟩
  | writeCrashed hroom w' h => cases ho
  | encryptFailed hroom e w' henc h =>
    cases ho
    obtain ⟨l, h1, h2⟩ := h.log
    exact ⟨Or.inr rfl, by rw [bump_count s hroom]; omega, l, by rw [h1]; simp, by simp [wire_fileEvents h2], attempted_of_fileEvents h2⟩
  | net hroom bytes w1 w' henc h hfs hpend sent l hl hlog o ho' =>
    subst ho
    obtain ⟨l1, h1, h2⟩ := h.log
    have hs' : s' = s.bump ∧ (sent = true ∨ ∃ e, r = .error e) := by
      rcases ho' with ho | ho | ⟨ho, hsent⟩
      · cases ho
      · cases ho; exact ⟨rfl, Or.inr ⟨_, rfl⟩⟩
      · cases ho; exact ⟨rfl, Or.inl hsent⟩
    obtain ⟨rfl, hr⟩ := hs'
    refine ⟨Or.inr rfl, by rw [bump_count s hroom]; omega, l1 ++ l, by rw [hlog, h1]; simp, fun _ => by rw [bump_count s hroom]; omega, ?_, ?_, ?_⟩
    · intro e he
      rcases List.mem_append.1 he with he | he
      · exact (attempted_of_fileEvents (A := A) (hash := hash) (s := s) (a := a) (c := s.bump.counter.count) h2).only e he
      · obtain ⟨n, rfl⟩ := hl.shape
        rcases List.mem_append.1 he with he | he
        · exact Or.inr (Or.inr (Or.inl (List.eq_of_mem_replicate he)))
        · split at he
          · simp at he
            exact Or.inr (Or.inr (Or.inr ⟨bytes, he, encode_isPacket henc⟩))
          · cases he
    · rw [wire_append, wire_fileEvents h2, wire_net hl]
      split <;> simp
    · intro hok
      rw [wire_append, wire_fileEvents h2, wire_net hl]
      rcases hr with hr | ⟨e, rfl⟩
      · rw [if_pos hr]; rfl
      · cases hok

theorem attempt_noErr {A : Aead} {hash : List Char → U64} {s : Sender} {a : SockAddr} {rnd : Option (List Byte)} {w w' : World} {e : Err}
    (h : Attempt A hash s a rnd w (.err e) w') : False := by
  generalize ho : (Out.err e : Out (Sender × Except Err Unit)) = o at h
  cases h with
  | net hroom bytes w1 w' henc h hfs hpend sent l hl hlog o ho' =>
    subst ho
    rcases ho' with ho | ho | ⟨ho, _⟩ <;> cases ho
  | _ => cases ho

theorem Spec.Attempted.congr {A : Aead} {hash : List Char → U64} {s s' : Sender} (hs : s' = s ∨ s' = s.bump) {a : SockAddr} {c : U128} {ok : Bool}
    {l : List Event} (h : Attempted A hash s' a c ok l) : Attempted A hash s a c ok l := by
  rcases hs with rfl | rfl
  · exact h
  · exact ⟨h.only, h.atMostOne, h.sent⟩

theorem Spec.Tried.congr {A : Aead} {hash : List Char → U64} {s s' : Sender} (hs : s' = s ∨ s' = s.bump) {i prev : Nat} {dsts : List SockAddr}
    {results : List Bool} {l : List Event} (h : Tried A hash s' i prev dsts results l) : Tried A hash s i prev dsts results l := by
  have hd : s'.cmd.delayMs = s.cmd.delayMs := by rcases hs with rfl | rfl <;> rfl
  induction h with
  | nil i prev => exact .nil i prev
  | cons hle hlt ha h ih =>
    rw [hd]
    exact .cons hle hlt (ha.congr hs) ih

theorem sendLoop_spec (A : Aead) (hash : List Char → U64) (rnd : Nat → Option (List Byte)) (s : Sender) (i : Nat) (dsts : List SockAddr) (w : World) :
    wp (s.sendLoop A hash rnd i dsts) w (fun o w' => (∀ e, o ≠ .err e) ∧ ∀ s' n, o = .ok (s', n) →
      ∃ results l, w'.log = w.log ++ l ∧ Tried A hash s i s.counter.count.toNat dsts results l ∧ n = results.count false ∧ results.length = dsts.length) := by
  induction dsts generalizing s i w with
  | nil => exact ⟨nofun, fun s' n h => by cases h; exact ⟨[], [], by simp [Sender.sendLoop, pure, Act.pure], .nil _ _, rfl, rfl⟩⟩
  | cons a rest ih =>
    unfold Sender.sendLoop
    rw [wp_bind]
    have hpause : wp (s.pause i) w (fun o w' => o = .ok () ∧
        w'.log = w.log ++ (if 0 < i ∧ 0 < s.cmd.delayMs then [.sleep s.cmd.delayMs] else [])) := by
      unfold Sender.pause
      split
      · exact ⟨rfl, rfl⟩
      · exact ⟨rfl, by simp [pure, Act.pure]⟩
    refine wp_mono hpause ?_
    rintro o w1 ⟨rfl, hlog1⟩
    simp only
    rw [wp_bind]
    refine wp_mono (sendData_spec A hash s a (rnd i) w1) ?_
    intro o w2 hat
    cases o with
    | crash => exact ⟨nofun, nofun⟩
    | err e => exact absurd hat attempt_noErr
    | ok x =>
      obtain ⟨s1, r⟩ := x
      obtain ⟨hs1, hle, la, hlog2, hlt, hatt⟩ := attempt_trace hat
      simp only
      cases r with
      | error e =>
        simp only
        rw [wp_bind, wp_note]
        simp only
        rw [wp_bind]
        refine wp_mono (ih s1 (i + 1) _) ?_
        rintro o w3 ⟨hne, hok⟩
        cases o with
        | crash => exact ⟨nofun, nofun⟩
        | err e => exact absurd rfl (hne e)
        | ok y =>
          obtain ⟨s2, n⟩ := y
          obtain ⟨results, l, hlog3, htried, hn, hlen⟩ := hok s2 n rfl
          refine ⟨nofun, fun s' n' h => ?_⟩
          cases h
          refine ⟨false :: results, _, ?_, .cons hle hlt hatt (htried.congr hs1), by rw [List.count_cons_self, hn], by simp [hlen]⟩
          show w3.log = _
          rw [hlog3, hlog2, hlog1]
          simp
      | ok u =>
        simp only
        refine wp_mono (ih s1 (i + 1) w2) ?_
        rintro o w3 ⟨hne, hok⟩
        refine ⟨hne, fun s' n' h => ?_⟩
        obtain ⟨results, l, hlog3, htried, hn, hlen⟩ := hok s' n' h
        refine ⟨true :: results, _, ?_, .cons hle hlt hatt (htried.congr hs1), by rw [List.count_cons_of_ne (by decide), hn], by simp [hlen]⟩
        rw [hlog3, hlog2, hlog1]
        simp

/-- **C34.** Unless the process dies, sending to a list of destinations tries each exactly once, in order, whatever happened to the ones before, with
a larger counter each time, waiting only between attempts (`Tried`); and it reports failure if and only if there was a destination and all
attempts failed. -/
theorem C34_every_destination_tried (A : Aead) (hash : List Char → U64) (rnd : Nat → Option (List Byte)) (s : Sender) (dsts : List SockAddr)
    (w w' : World) (o : Out Unit) (h : s.sendToDestinations A hash rnd dsts w = (o, w')) (hc : o ≠ .crash) :
    ∃ results l, w'.log = w.log ++ l ∧ results.length = dsts.length ∧ Tried A hash s 0 s.counter.count.toNat dsts results l ∧
      ((∃ e, o = .err e) ↔ dsts ≠ [] ∧ ∀ r ∈ results, r = false) ∧ (o = .ok () ↔ ¬ (dsts ≠ [] ∧ ∀ r ∈ results, r = false)) := by
  have hw : wp (s.sendToDestinations A hash rnd dsts) w (fun o w' => o = .crash ∨
      ∃ results l, w'.log = w.log ++ l ∧ results.length = dsts.length ∧ Tried A hash s 0 s.counter.count.toNat dsts results l ∧
      ((∃ e, o = .err e) ↔ dsts ≠ [] ∧ ∀ r ∈ results, r = false) ∧ (o = .ok () ↔ ¬ (dsts ≠ [] ∧ ∀ r ∈ results, r = false))) := by
    unfold Sender.sendToDestinations
    rw [wp_bind]
    refine wp_mono (sendLoop_spec A hash rnd s 0 dsts w) ?_
    rintro o w1 ⟨hne, hok⟩
    cases o with
    | crash => exact Or.inl rfl
    | err e => exact absurd rfl (hne e)
    | ok x =>
      obtain ⟨s1, n⟩ := x
      obtain ⟨results, l, hlog, htried, hn, hlen⟩ := hok s1 n rfl
      have hiff : (dsts ≠ [] ∧ n = dsts.length) ↔ (dsts ≠ [] ∧ ∀ r ∈ results, r = false) := by
        apply and_congr_right
        intro _
        rw [hn, ← hlen, List.count_eq_length]
        exact ⟨fun h r hr => (h r hr).symm, fun h r hr => (h r hr).symm⟩
      right
      refine ⟨results, l, ?_, hlen, htried, ?_⟩
      · simp only
        split <;> exact hlog
      · rw [← hiff]
        simp only
        by_cases hx : dsts ≠ [] ∧ n = dsts.length
        · rw [if_pos hx]
          exact ⟨⟨fun _ => hx, fun _ => ⟨_, rfl⟩⟩, ⟨nofun, fun h => absurd hx h⟩⟩
        · rw [if_neg hx]
          exact ⟨⟨nofun, fun h => absurd h hx⟩, ⟨fun _ => hx, fun _ => rfl⟩⟩
  unfold wp at hw
  rw [h] at hw
  rcases hw with h | h
  · exact absurd h hc
  · exact h

/-- What `Tried` says about the datagrams: their counters strictly increase and are above all used before. -/
theorem tried_wire {A : Aead} {hash : List Char → U64} {s : Sender} {i prev : Nat} {dsts : List SockAddr} {results : List Bool} {l : List Event}
    (h : Tried A hash s i prev dsts results l) : (wire l).Pairwise (fun a b => a.toNat < b.toNat) ∧ ∀ c ∈ wire l, prev < c.toNat := by
  induction h with
  | nil => simp [wire]
  | @cons i prev a rest ok results c la l hle hlt ha h ih =>
    have hla : ∀ x ∈ wire la, x = c := by
      intro x hx
      unfold wire at hx
      rw [List.mem_filterMap] at hx
      obtain ⟨e, he, hx⟩ := hx
      rcases ha.only e he with ⟨op, p, rfl⟩ | ⟨p, rfl | rfl⟩ | rfl | ⟨b, rfl, _⟩
      all_goals first
        | cases hx; rfl
        | cases hx
    have hw : wire ((if 0 < i ∧ 0 < s.cmd.delayMs then [.sleep s.cmd.delayMs] else []) ++ .sendTo a.ip a.port :: la ++
          (if ok then [] else [.sendFailed a.ip a.port]) ++ l) = wire la ++ wire l := by
      rw [wire_append, wire_append, wire_append]
      have h1 : wire (if 0 < i ∧ 0 < s.cmd.delayMs then [Event.sleep s.cmd.delayMs] else []) = [] := by split <;> rfl
      have h2 : wire (if ok then [] else [Event.sendFailed a.ip a.port]) = [] := by split <;> rfl
      rw [h1, h2, List.append_nil, List.nil_append]
      rfl
    rw [hw]
    constructor
    · rw [List.pairwise_append]
      refine ⟨?_, ih.1, fun x hx y hy => by rw [hla x hx]; exact ih.2 y hy⟩
      have := ha.atMostOne
      match hw' : wire la with
      | [] => exact .nil
      | [x] => exact List.pairwise_singleton _ _
      | _ :: _ :: _ => rw [hw'] at this; simp at this
    · intro x hx
      rcases List.mem_append.1 hx with hx | hx
      · rw [hla x hx]
        exact hlt (List.ne_nil_of_mem hx)
      · have := ih.2 x hx
        omega

/-! ## C35 -/

theorem firstV4_eq (l : List SockAddr) : firstV4 l = (l.filter (fun a => a.ip.isV4)).head? := by
  induction l with
  | nil => rfl
  | cons a l ih =>
    obtain ⟨ip, p⟩ := a
    cases ip with
    | v4 x => simp [firstV4, Ip.isV4]
    | v6 x => simp [firstV4, Ip.isV4, ih]

theorem firstV6_eq (l : List SockAddr) : firstV6 l = (l.filter (fun a => !a.ip.isV4)).head? := by
  induction l with
  | nil => rfl
  | cons a l ih =>
    obtain ⟨ip, p⟩ := a
    cases ip with
    | v4 x => simp [firstV6, Ip.isV4, ih]
    | v6 x => simp [firstV6, Ip.isV4]

/-- **C35**, only `-4`: the first resolved IPv4 address, or failure. -/
theorem C35_only_v4 (all : List SockAddr) : getDestinationIps true false (some all) = match firstV4 all with
    | some a => .ok [a]
    | none => .error .noAddress := by
  rw [firstV4_eq]
  unfold getDestinationIps
  simp only
  cases (all.filter (fun a => a.ip.isV4)).head? <;> rfl

/-- **C35**, only `-6`. -/
theorem C35_only_v6 (all : List SockAddr) : getDestinationIps false true (some all) = match firstV6 all with
    | some a => .ok [a]
    | none => .error .noAddress := by
  rw [firstV6_eq]
  unfold getDestinationIps
  simp only [if_pos]
  cases (all.filter (fun a => !a.ip.isV4)).head? <;> rfl

/-- **C35**, neither or both: the first of each family, IPv4 first; failure only if there is neither. -/
theorem C35_no_preference (both : Bool) (all : List SockAddr) : getDestinationIps both both (some all) =
    (if (firstV4 all).toList ++ (firstV6 all).toList = [] then .error .noAddress else .ok ((firstV4 all).toList ++ (firstV6 all).toList)) := by
  rw [firstV4_eq, firstV6_eq]
  unfold getDestinationIps
  simp only [if_pos]
  cases (all.filter (fun a => a.ip.isV4)).head? <;> cases (all.filter (fun a => !a.ip.isV4)).head? <;> rfl

/-- **C35**, if the name does not resolve, nothing is sent. -/
theorem C35_unresolved (ipv4 ipv6 : Bool) : getDestinationIps ipv4 ipv6 none = .error .noAddress := rfl

theorem firstV4_mem {all : List SockAddr} {a : SockAddr} (h : firstV4 all = some a) : a ∈ all ∧ ∃ x, a.ip = .v4 x := by
  rw [firstV4_eq] at h
  have := List.mem_of_mem_head? h
  rw [List.mem_filter] at this
  refine ⟨this.1, ?_⟩
  cases hi : a.ip with
  | v4 x => exact ⟨x, rfl⟩
  | v6 x => rw [hi] at this; cases this.2

theorem firstV6_mem {all : List SockAddr} {a : SockAddr} (h : firstV6 all = some a) : a ∈ all ∧ ∃ x, a.ip = .v6 x := by
  rw [firstV6_eq] at h
  have := List.mem_of_mem_head? h
  rw [List.mem_filter] at this
  refine ⟨this.1, ?_⟩
  cases hi : a.ip with
  | v4 x => rw [hi] at this; cases this.2
  | v6 x => exact ⟨x, rfl⟩

/-- **C35**, in any case: never an address that was not resolved, never more than two, never none, never two of one family, and of the requested
family if only one was requested. -/
theorem C35_bounds (ipv4 ipv6 : Bool) (resolved : Option (List SockAddr)) (dsts : List SockAddr) (h : getDestinationIps ipv4 ipv6 resolved = .ok dsts) :
    ∃ all, resolved = some all ∧ dsts ≠ [] ∧ dsts.length ≤ 2 ∧ (∀ a ∈ dsts, a ∈ all) ∧
      (∀ a b, dsts = [a, b] → (∃ x, a.ip = .v4 x) ∧ ∃ y, b.ip = .v6 y) ∧
      (ipv4 = true → ipv6 = false → ∀ a ∈ dsts, ∃ x, a.ip = .v4 x) ∧ (ipv6 = true → ipv4 = false → ∀ a ∈ dsts, ∃ x, a.ip = .v6 x) := by
  cases resolved with
  | none => cases h
  | some all =>
    refine ⟨all, rfl, ?_⟩
    have hsame : ∀ b, getDestinationIps b b (some all) = .ok dsts → dsts ≠ [] ∧ dsts.length ≤ 2 ∧ (∀ a ∈ dsts, a ∈ all) ∧
        (∀ a b, dsts = [a, b] → (∃ x, a.ip = .v4 x) ∧ ∃ y, b.ip = .v6 y) := by
      intro b h
      rw [C35_no_preference] at h
      split at h
      · cases h
      · rename_i hne
        injection h with h
        subst h
        cases h4 : firstV4 all with
        | none =>
          cases h6 : firstV6 all with
          | none => rw [h4, h6] at hne; exact absurd rfl hne
          | some y => exact ⟨by simp, by simp, by intro a ha; simp at ha; subst ha; exact (firstV6_mem h6).1, by simp⟩
        | some x =>
          cases h6 : firstV6 all with
          | none => exact ⟨by simp, by simp, by intro a ha; simp at ha; subst ha; exact (firstV4_mem h4).1, by simp⟩
          | some y =>
            refine ⟨by simp, by simp, ?_, ?_⟩
            · intro a ha
              simp at ha
              rcases ha with rfl | rfl
              · exact (firstV4_mem h4).1
              · exact (firstV6_mem h6).1
            · intro a b hab
              simp at hab
              obtain ⟨rfl, rfl⟩ := hab
              exact ⟨(firstV4_mem h4).2, (firstV6_mem h6).2⟩
    cases ipv4 <;> cases ipv6
    · obtain ⟨h1, h2, h3, h4⟩ := hsame false h
      exact ⟨h1, h2, h3, h4, nofun, nofun⟩
    · rw [C35_only_v6] at h
      cases h6 : firstV6 all with
      | none => rw [h6] at h; cases h
      | some y =>
        rw [h6] at h
        injection h with h
        subst h
        refine ⟨by simp, by simp, ?_, by simp, nofun, fun _ _ => ?_⟩
        · intro a ha; simp at ha; subst ha; exact (firstV6_mem h6).1
        · intro a ha; simp at ha; subst ha; exact (firstV6_mem h6).2
    · rw [C35_only_v4] at h
      cases h4 : firstV4 all with
      | none => rw [h4] at h; cases h
      | some y =>
        rw [h4] at h
        injection h with h
        subst h
        refine ⟨by simp, by simp, ?_, by simp, fun _ _ => ?_, nofun⟩
        · intro a ha; simp at ha; subst ha; exact (firstV4_mem h4).1
        · intro a ha; simp at ha; subst ha; exact (firstV4_mem h4).2
    · obtain ⟨h1, h2, h3, h4⟩ := hsame true h
      exact ⟨h1, h2, h3, h4, nofun, nofun⟩

/-! ## Concrete cases -/

def exSenderKey : CryptoHandler := { id := [1, 2, 3, 4, 5, 6, 7, 8], key := List.replicate 32 9 }

def exSender (n : U128) : Sender where
  cmd := { address := "host:80".toList, command := "open".toList, permissive := false, ip := none, ipv4 := false, ipv6 := false, delayMs := 100 }
  srcIp := none
  handler := exSenderKey
  counter := ⟨"/c/counter".toList, n⟩

/-- A disk with a file at the counter's place. -/
def exDisk (bytes : Option (List Byte)) (oracle : List Choice) : World where
  fs := fun q => if q = "/c/counter".toList then bytes.map (⟨·, 0o644, true, .creator⟩) else none
  pend := fun _ => []
  clock := List.replicate 9 (some 1763290000000000000)
  oracle := oracle
  umask := 0o022
  cur := []
  log := []

/-- C33: a file of 15 bytes is refused; one of 17 is read; a missing one is seeded; with a failing rename it stays missing. -/
example : (Counter.createAndInit "/c/counter".toList 7 (exDisk (some (List.replicate 15 1)) [])).1 = .err .parse ∧
    (Counter.createAndInit "/c/counter".toList 7 (exDisk (some (beBytes 16 500 ++ [1])) [])).1 = .ok ⟨"/c/counter".toList, 500⟩ ∧
    counterOnDisk (Counter.createAndInit "/c/counter".toList 7 (exDisk none [])).2 "/c/counter".toList = some 7 ∧
    counterOnDisk (Counter.createAndInit "/c/counter".toList 7 (exDisk none [.ok, .ok, .ok, .ok, .err 0])).2 "/c/counter".toList = none := by
  decide +kernel

/-- C33: at the maximum nothing is written. -/
example : (Counter.inc ⟨"/c/counter".toList, BitVec.allOnes 128⟩ (exDisk none [])).1 =
    .ok (⟨"/c/counter".toList, BitVec.allOnes 128⟩, .error .overflow) := by decide +kernel

def exDsts : List SockAddr := [⟨.v4 0x0a000002, 80⟩, ⟨.v6 1, 80⟩, ⟨.v4 0x0a000003, 80⟩]

/-- C34: the first destination fails (its socket cannot be created), the others are tried with the next counters. -/
example : (fun r : Out Unit × World => (r.1, wire r.2.log)) ((exSender 500).sendToDestinations toyAead (fun _ => 7)
      (fun _ => some (List.replicate 12 3)) exDsts (exDisk none [.ok, .ok, .ok, .ok, .ok, .err 0])) = (.ok (), [502, 503]) := by decide +kernel

/-- C34: no randomness for any IV; all fail and that is reported; with no destination nothing is reported. -/
example : ((exSender 500).sendToDestinations toyAead (fun _ => 7) (fun _ => none) exDsts (exDisk none [])).1 = .err .notSent ∧
    ((exSender 500).sendToDestinations toyAead (fun _ => 7) (fun _ => none) [] (exDisk none [])).1 = .ok () := by decide +kernel

/-- C35. -/
example : getDestinationIps false false (some exDsts) = .ok [⟨.v4 0x0a000002, 80⟩, ⟨.v6 1, 80⟩] ∧
    getDestinationIps false true (some exDsts) = .ok [⟨.v6 1, 80⟩] ∧ getDestinationIps true false (some [⟨.v6 1, 80⟩]) = .error .noAddress := by
  decide +kernel

end Ruroco
