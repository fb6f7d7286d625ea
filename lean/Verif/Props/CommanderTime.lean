import Verif.Model.CommanderTime
import Verif.Props.Exec
import Verif.Spec.Terms.CommanderTime

/-!
# C71, C72: how long the commander can be held up
-/

namespace Ruroco

open Spec (Timely)

theorem second_eq : SECOND = 1000000000 := rfl

attribute [local irreducible] SECOND

theorem readOnce_got {p : Arrivals} {closes : Option Nat} {room now wake count : Nat} {bs : List Byte} {rest : Arrivals} {t : Nat} (hroom : 0 < room)
    (h : readOnce p closes room now wake count = .got bs rest t) :
    0 < bs.length ∧ bs.length ≤ room ∧ p.map (·.2) = bs ++ rest.map (·.2) ∧ rest = p.drop bs.length ∧ (∃ a b q, p = (a, b) :: q ∧ t = max now a + wake ∧ a ≤ now + SECOND) := by
  unfold readOnce at h
  split at h
  · rename_i a b q
    split at h
    · rename_i ha
      simp only [RecvResult.got.injEq] at h
      obtain ⟨rfl, rfl, rfl⟩ := h
      have hpre : (q.takeWhile (fun x => decide (x.1 ≤ max now a + wake))).take (min (room - 1) count) <+: q := (List.take_prefix _ _).trans (List.takeWhile_prefix _)
      obtain ⟨r, hr⟩ := hpre
      refine ⟨by simp, ?_, ?_, by simp, a, b, q, rfl, rfl, ha⟩
      · simp only [List.length_cons, List.length_map, List.length_take]
        omega
      · generalize (q.takeWhile (fun x => decide (x.1 ≤ max now a + wake))).take (min (room - 1) count) = m at hr ⊢
        subst hr
        simp
    · cases h
  · split at h
    · split at h <;> cases h
    · cases h

theorem readOnce_late {p : Arrivals} {closes : Option Nat} {room now wake count : Nat} {t : Nat}
    (h : readOnce p closes room now wake count = .eof t ∨ readOnce p closes room now wake count = .timedOut t) : now ≤ t ∧ t ≤ now + SECOND + wake := by
  unfold readOnce at h
  split at h
  · split at h
    · rcases h with h | h <;> cases h
    · rcases h with h | h <;> cases h
      omega
  · split at h
    · split at h <;> rcases h with h | h <;> cases h <;> omega
    · rcases h with h | h <;> cases h
      omega

theorem headD_le {δ : Nat} {wakes : List (Nat × Nat)} (h : ∀ x ∈ wakes, x.1 ≤ δ) (n : Nat) : (wakes.headD (0, n)).1 ≤ δ := by
  cases wakes with
  | nil => exact Nat.zero_le _
  | cons x _ => exact h x (by simp)

theorem tail_le {δ : Nat} {wakes : List (Nat × Nat)} (h : ∀ x ∈ wakes, x.1 ≤ δ) : ∀ x ∈ wakes.tail, x.1 ≤ δ := fun x hx => h x (List.mem_of_mem_tail hx)

theorem readExact_time {δ : Nat} {fuel : Nat} {p : Arrivals} {closes : Option Nat} {wakes : List (Nat × Nat)} {room now : Nat} {acc : List Byte} (hw : ∀ x ∈ wakes, x.1 ≤ δ)
    (hf : room ≤ fuel) :
    now ≤ (readExact fuel p closes wakes room now acc).2 ∧ (readExact fuel p closes wakes room now acc).2 ≤ now + room * (SECOND + δ) := by
  induction fuel generalizing p wakes room now acc with
  | zero => exact ⟨Nat.le_refl _, Nat.le_add_right _ _⟩
  | succ fuel ih =>
    unfold readExact
    split
    · exact ⟨Nat.le_refl _, Nat.le_add_right _ _⟩
    · rename_i h0
      have hd := headD_le hw room
      simp only
      have hmul : 1 * (SECOND + δ) ≤ room * (SECOND + δ) := Nat.mul_le_mul_right _ (by omega)
      split
      · rename_i bs rest t hg
        obtain ⟨h1, h2, -, -, a, b, q, -, ht, ha⟩ := readOnce_got (by omega) hg
        have := ih (p := rest) (wakes := wakes.tail) (room := room - bs.length) (now := t) (acc := acc ++ bs) (tail_le hw) (by omega)
        have hle : (room - bs.length) * (SECOND + δ) ≤ (room - 1) * (SECOND + δ) := Nat.mul_le_mul_right _ (by omega)
        have he : (room - 1) * (SECOND + δ) + (SECOND + δ) = room * (SECOND + δ) := by
          rw [← Nat.succ_mul]
          congr 1
          omega
        omega
      · rename_i t hg
        have := readOnce_late (.inl hg)
        simp only
        omega
      · rename_i t hg
        have := readOnce_late (.inr hg)
        simp only
        omega

theorem readExact_bytes {fuel : Nat} {p : Arrivals} {closes : Option Nat} {wakes : List (Nat × Nat)} {room now : Nat} {acc : List Byte} (hf : room ≤ fuel) :
    ∃ bs, bs <+: p.map (·.2) ∧ ((bs.length = room ∧ (readExact fuel p closes wakes room now acc).1 = .ok (acc ++ bs)) ∨
      (bs.length < room ∧ (readExact fuel p closes wakes room now acc).1 = .error .io)) := by
  induction fuel generalizing p wakes room now acc with
  | zero => exact ⟨[], by simp, .inl ⟨by simp; omega, by simp [readExact]⟩⟩
  | succ fuel ih =>
    unfold readExact
    split
    · exact ⟨[], by simp, .inl ⟨by simp; omega, by simp⟩⟩
    · rename_i h0
      simp only
      split
      · rename_i bs rest t hg
        obtain ⟨h1, h2, h3, -, -⟩ := readOnce_got (by omega) hg
        obtain ⟨bs', ⟨r, hr⟩, h⟩ := ih (p := rest) (wakes := wakes.tail) (room := room - bs.length) (now := t) (acc := acc ++ bs) (by omega)
        refine ⟨bs ++ bs', ⟨r, by rw [h3, ← hr, List.append_assoc]⟩, ?_⟩
        rcases h with ⟨hl, h⟩ | ⟨hl, h⟩
        · exact .inl ⟨by rw [List.length_append]; omega, by rw [h, List.append_assoc]⟩
        · exact .inr ⟨by rw [List.length_append]; omega, h⟩
      · exact ⟨[], by simp, .inr ⟨by simp; omega, rfl⟩⟩
      · exact ⟨[], by simp, .inr ⟨by simp; omega, rfl⟩⟩

theorem readExact_prompt {δ : Nat} {fuel : Nat} {p : Arrivals} {closes : Option Nat} {wakes : List (Nat × Nat)} {room now : Nat} {acc : List Byte} (hw : ∀ x ∈ wakes, x.1 ≤ δ)
    (hf : room ≤ fuel) (hlen : room ≤ p.length) (hall : ∀ x ∈ p.take room, x.1 ≤ now) :
    (readExact fuel p closes wakes room now acc).1 = .ok (acc ++ (p.map (·.2)).take room) ∧ (readExact fuel p closes wakes room now acc).2 ≤ now + room * δ := by
  induction fuel generalizing p wakes room now acc with
  | zero =>
    have : room = 0 := by omega
    subst this
    simp [readExact]
  | succ fuel ih =>
    unfold readExact
    split
    · rename_i h0
      subst h0
      simp
    · rename_i h0
      have hd := headD_le hw room
      simp only
      split
      · rename_i bs rest t hg
        obtain ⟨h1, h2, h3, h4, a, b, q, hp, ht, ha⟩ := readOnce_got (by omega) hg
        have ha' : a ≤ now := by
          refine hall (a, b) ?_
          obtain ⟨m, rfl⟩ : ∃ m, room = m + 1 := ⟨room - 1, by omega⟩
          rw [hp]
          simp
        have := ih (p := rest) (wakes := wakes.tail) (room := room - bs.length) (now := t) (acc := acc ++ bs) (tail_le hw) (by omega) (by rw [h4, List.length_drop]; omega) ?_
        · refine ⟨?_, ?_⟩
          · rw [this.1, h3, List.append_assoc, List.take_append, List.take_of_length_le h2]
          · have hle : (room - bs.length) * δ ≤ (room - 1) * δ := Nat.mul_le_mul_right _ (by omega)
            have he : (room - 1) * δ + δ = room * δ := by
              rw [← Nat.succ_mul]
              congr 1
              omega
            have h5 := this.2
            omega
        · intro x hx
          have : x ∈ p.take room := by
            rw [h4] at hx
            have e : (p.drop bs.length).take (room - bs.length) = (p.take room).drop bs.length := by
              rw [List.drop_take]
            rw [e] at hx
            exact List.mem_of_mem_drop hx
          have := hall x this
          omega
      · rename_i t hg
        exfalso
        revert hg
        match p, hlen, hall with
        | [], hlen, _ => simp at hlen; omega
        | (a, b) :: q, _, _ =>
          unfold readOnce
          simp only
          split <;> exact nofun
      · rename_i t hg
        exfalso
        revert hg
        match p, hlen, hall with
        | [], hlen, _ => simp at hlen; omega
        | (a, b) :: q, _, hall =>
          have : a ≤ now := hall (a, b) (by
            obtain ⟨m, rfl⟩ : ∃ m, room = m + 1 := ⟨room - 1, by omega⟩
            simp)
          unfold readOnce
          simp only
          rw [if_pos (by omega)]
          exact nofun

/-! ## C71 -/

/-- What the bytes a peer has sent amount to, and what `C26`-`C29` call the bytes of a connection: some beginning of what it sends. -/
theorem read_refines (k : TimedConn) (now : Nat) : ∃ delivered, delivered <+: k.peer.map (·.2) ∧ (k.read now).1 = Commander.read delivered := by
  obtain ⟨bs, h1, h2⟩ := readExact_bytes (fuel := CMDR_DATA_SIZE) (p := k.peer) (closes := k.closes) (wakes := k.wakes) (room := CMDR_DATA_SIZE) (now := now) (acc := []) (Nat.le_refl _)
  refine ⟨bs, h1, ?_⟩
  unfold TimedConn.read Commander.read
  rcases h2 with ⟨hl, h⟩ | ⟨hl, h⟩
  · rw [h, if_neg (by omega), List.nil_append, List.take_of_length_le (by omega)]
  · rw [h, if_pos hl]

/-- **C71**, proved part: whatever a peer sends and when, reading its request takes at most 24 seconds (and 24 times the delay `δ` after which the commander runs again); if its first
byte does not come within a second, the commander gives up after that second; a request that is there completely is read without waiting. Missing: a peer that sends its bytes one by one
is not dropped after one second, see `C71_trickling_peer`. -/
theorem C71_read_bounded_partial (k : TimedConn) (now δ : Nat) (hw : ∀ x ∈ k.wakes, x.1 ≤ δ) :
    (now ≤ (k.read now).2 ∧ (k.read now).2 ≤ now + 24 * (1000000000 + δ)) ∧
    ((∀ x, k.peer.head? = some x → now + 1000000000 < x.1) → (∀ t, k.closes = some t → now + 1000000000 < t) → (k.read now).1 = .error .io ∧ (k.read now).2 ≤ now + 1000000000 + δ) ∧
    (24 ≤ k.peer.length → (∀ x ∈ k.peer.take 24, x.1 ≤ now) → (k.read now).1 = .ok ((k.peer.map (·.2)).take 24) ∧ (k.read now).2 ≤ now + 24 * δ) := by
  refine ⟨?_, ?_, ?_⟩
  · have := readExact_time (fuel := CMDR_DATA_SIZE) (p := k.peer) (closes := k.closes) (wakes := k.wakes) (room := CMDR_DATA_SIZE) (now := now) (acc := []) hw (Nat.le_refl _)
    rw [second_eq] at this
    exact this
  · intro h1 h2
    have hd := headD_le hw CMDR_DATA_SIZE
    rw [← second_eq] at h1 h2 ⊢
    have hro : readOnce k.peer k.closes CMDR_DATA_SIZE now (k.wakes.headD (0, CMDR_DATA_SIZE)).1 (k.wakes.headD (0, CMDR_DATA_SIZE)).2 =
        .timedOut (now + SECOND + (k.wakes.headD (0, CMDR_DATA_SIZE)).1) := by
      unfold readOnce
      split
      · rename_i a b q hp
        rw [if_neg]
        have := h1 (a, b) (by rw [hp]; rfl)
        simp only at this
        omega
      · split
        · rename_i c hc
          rw [if_neg]
          have := h2 c hc
          omega
        · rfl
    have : k.read now = (.error .io, now + SECOND + (k.wakes.headD (0, CMDR_DATA_SIZE)).1) := by
      unfold TimedConn.read
      rw [show CMDR_DATA_SIZE = 23 + 1 from rfl] at hro ⊢
      unfold readExact
      rw [if_neg (by decide)]
      simp only [hro]
    rw [this]
    exact ⟨rfl, by simp only; omega⟩
  · intro h1 h2
    exact readExact_prompt (fuel := CMDR_DATA_SIZE) (room := CMDR_DATA_SIZE) (acc := []) hw (Nat.le_refl _) h1 h2

/-- A peer that sends one byte every 0.99 s, forever as far as this matters. -/
def trickle : TimedConn := { at_ := 0, peer := (List.range 24).map (fun i => (990000000 * (i + 1), 0)), closes := none, wakes := [], before := 0, spawns := true, exit := none, rounds := [], after := 0 }

/-- **C71 is false as stated**: the commander is held up for almost 24 seconds by a peer that sends one byte every 0.99 s, although the time limit on reading is one second. -/
theorem C71_trickling_peer : ∃ (k : TimedConn), (∀ x ∈ k.wakes, x.1 ≤ 0) ∧ (k.read 0).2 = 23760000000 := ⟨trickle, by decide +kernel⟩

/-! ## C72 -/

theorem pollEnd_bound {exit : Option (Nat × Bool)} {d δ t : Nat} {rounds : List Round} (ht : t ≤ d + 50000000) (htime : Timely δ t rounds) (hlong : ∃ r ∈ rounds, d ≤ r.now) :
    ∃ e, pollEnd exit (some d) rounds = some e ∧ t ≤ e ∧ e ≤ d + 50000000 + 2 * δ := by
  induction rounds generalizing t with
  | nil => obtain ⟨r, hr, _⟩ := hlong; cases hr
  | cons r rest ih =>
    obtain ⟨h1, h2, h3, h4, h5⟩ := htime
    rw [show POLL_INTERVAL = 50000000 by unfold POLL_INTERVAL; rfl] at h5
    unfold pollEnd
    split
    · exact ⟨_, rfl, by omega, by omega⟩
    · split
      · exact ⟨_, rfl, by omega, by omega⟩
      · simp only [Option.any_some, decide_eq_true_eq]
        by_cases hd : d ≤ r.now
        · rw [if_pos hd]
          exact ⟨_, rfl, by omega, by omega⟩
        · rw [if_neg hd]
          have : ∃ r ∈ rest, d ≤ r.now := by
            obtain ⟨r', hr', hl⟩ := hlong
            rcases List.mem_cons.1 hr' with rfl | hr'
            · exact absurd hl hd
            · exact ⟨r', hr', hl⟩
          obtain ⟨e, h6, h7, h8⟩ := ih (by omega) h5 this
          exact ⟨e, h6, by omega, h8⟩

/-- `pollEnd` is the time of what `pollLoop` returns. -/
theorem pollEnd_some (exit : Option (Nat × Bool)) (dl : Option Nat) (rounds : List Round) : pollEnd exit dl rounds = none ↔ pollLoop exit dl rounds = .waiting := by
  induction rounds with
  | nil => exact ⟨fun _ => rfl, fun _ => rfl⟩
  | cons r rest ih =>
    unfold pollEnd pollLoop
    by_cases hw : r.waitFails = true
    · simp [hw]
    · rw [if_neg hw, if_neg hw]
      cases exitedBy exit r.waitAt with
      | some s => simp
      | none =>
        simp only
        by_cases hd : dl.any (fun d => decide (d ≤ r.now)) = true
        · rw [if_pos hd, if_pos hd]
          cases r.killFails <;> cases r.reapFails <;> simp
        · rw [if_neg hd, if_neg hd]
          exact ih

instance (limit δ ε t : Nat) (k : TimedConn) : Decidable (Unhindered limit δ ε t k) :=
  decidable_of_iff ((∀ x ∈ k.wakes, x.1 ≤ δ) ∧ k.before ≤ ε ∧ k.after ≤ ε ∧ Timely δ (t + k.before) k.rounds ∧ (∃ r ∈ k.rounds, t + k.before + limit * 1000000000 ≤ r.now) ∧
    (t + k.before) / 1000000000 + limit < 2 ^ 63) ⟨fun ⟨h1, h2, h3, h4, h5, h6⟩ => ⟨h1, h2, h3, h4, h5, h6⟩, fun ⟨h1, h2, h3, h4, h5, h6⟩ => ⟨h1, h2, h3, h4, h5, h6⟩⟩

instance decidableAllUnhindered (c : Commander) (limit δ ε : Nat) : (now : Nat) → (ks : List TimedConn) → Decidable (AllUnhindered c limit δ ε now ks)
  | _, [] => isTrue True.intro
  | now, k :: ks =>
    match h : c.cycleEnd k (max now k.at_) with
    | none => decidable_of_iff (Unhindered limit δ ε (k.read (max now k.at_)).2 k) ⟨fun h1 => ⟨h1, by rw [h]; exact nofun⟩, And.left⟩
    | some t =>
      have := decidableAllUnhindered c limit δ ε t ks
      decidable_of_iff (Unhindered limit δ ε (k.read (max now k.at_)).2 k ∧ AllUnhindered c limit δ ε t ks)
        ⟨fun h1 => ⟨h1.1, by rw [h]; rintro _ ⟨⟩; exact h1.2⟩, fun h1 => ⟨h1.1, h1.2 t h⟩⟩

theorem cycle_bound (c : Commander) (limit δ ε : Nat) (hlim : ∀ h spec, c.cmds.get h = some spec → spec.timeout ≤ limit) (k : TimedConn) (now : Nat)
    (hu : Unhindered limit δ ε (k.read now).2 k) :
    ∃ t, c.cycleEnd k now = some t ∧ now ≤ t ∧ t ≤ now + (24 * (1000000000 + δ) + limit * 1000000000 + 50000000 + 2 * δ + 2 * ε) := by
  have ht := (C71_read_bounded_partial k now δ hu.wakes).1
  have hb := hu.before
  have ha := hu.after
  unfold Commander.cycleEnd
  cases hr : k.read now with
  | mk r t =>
    rw [hr] at ht hu
    simp only at ht hu
    cases r with
    | error e => exact ⟨_, rfl, by omega, by omega⟩
    | ok msg =>
      simp only
      cases hg : c.cmds.get (CommanderData.ofBytes msg).cmdHash with
      | none => exact ⟨_, rfl, by omega, by omega⟩
      | some spec =>
        simp only
        split
        · exact ⟨_, rfl, by omega, by omega⟩
        · have hl := hlim _ _ hg
          have hmul : spec.timeout * 1000000000 ≤ limit * 1000000000 := Nat.mul_le_mul_right _ hl
          obtain ⟨D, hD⟩ : ∃ D, D = spec.timeout * 1000000000 := ⟨_, rfl⟩
          have hd : deadlineOf (t + k.before) spec.timeout = some (t + k.before + D) := by
            have := hu.fits
            unfold deadlineOf
            rw [second_eq, if_pos (by omega), hD]
          rw [hd]
          obtain ⟨r, hr, hlong⟩ := hu.long
          rw [← hD] at hmul
          obtain ⟨e, he, hge, hle⟩ := pollEnd_bound (exit := k.exit) (d := t + k.before + D) (t := t + k.before) (by omega) hu.timely ⟨r, hr, by omega⟩
          rw [he]
          refine ⟨e + k.after, rfl, ?_, ?_⟩ <;> omega

/-- **C72.** Commands are run one after the other; connections that are waiting are all served after at most their number times a fixed time: 24 s for reading, the largest
configured time limit, one polling interval of 50 ms, and the delays of the machine. No request is held up for longer by those before it, whatever they send and whatever their commands do. -/
theorem C72_waiting_is_bounded (c : Commander) (limit δ ε : Nat) (hlim : ∀ h spec, c.cmds.get h = some spec → spec.timeout ≤ limit) (conns : List TimedConn) (now : Nat)
    (hat : ∀ k ∈ conns, k.at_ ≤ now) (hu : AllUnhindered c limit δ ε now conns) :
    ∃ t, c.serveEnd now conns = some t ∧ t ≤ now + conns.length * (24 * (1000000000 + δ) + limit * 1000000000 + 50000000 + 2 * δ + 2 * ε) := by
  induction conns generalizing now with
  | nil => exact ⟨now, rfl, Nat.le_add_right _ _⟩
  | cons k ks ih =>
    have hk := hat k (by simp)
    have hm : max now k.at_ = now := by omega
    obtain ⟨h1, h2⟩ := hu
    rw [hm] at h1 h2
    obtain ⟨t, ht, hnow, hle⟩ := cycle_bound c limit δ ε hlim k now h1
    obtain ⟨t', ht', hle'⟩ := ih t (fun k hk => Nat.le_trans (hat k (by simp [hk])) hnow) (h2 t ht)
    refine ⟨t', ?_, ?_⟩
    · unfold Commander.serveEnd
      rw [hm, ht]
      exact ht'
    · rw [List.length_cons, Nat.succ_mul]
      omega

/-- The 24 bytes of a request for the command with hash `h` and a routable address, there at once, and a child that never ends, polled every 50 ms. -/
def exStuck (start : Nat) : TimedConn :=
  { at_ := 0, peer := ((CommanderData.mk 1 (.v4 0x08080808)).toBytes).map (fun b => (0, b)), closes := none, wakes := [], before := 0, spawns := true, exit := none,
    rounds := (List.range 30).map (fun i => ⟨start + 50000000 * i, start + 50000000 * i, false, false, false⟩), after := 0 }

/-- Non-vacuity: a trickling peer, then two requests whose command never ends (time limit one second). -/
example : AllUnhindered { exCommander with cmds := [(1, ⟨"sleep".toList, 1⟩)] } 1 0 0 0 [{ trickle with rounds := (exStuck 23760000000).rounds }, exStuck 23760000000, exStuck 24760000000] ∧
    Commander.serveEnd { exCommander with cmds := [(1, ⟨"sleep".toList, 1⟩)] } 0 [trickle, exStuck 23760000000, exStuck 24760000000] = some 25760000000 := by
  decide +kernel

end Ruroco
