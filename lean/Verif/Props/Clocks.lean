import Verif.Props.SharedKey

/-!
# C101: wrong clocks
-/

namespace Ruroco

open Spec (datagrams counterOnDisk records recordsWithin SharedSend setAt total SharedRequest requestsOfSend requestsOf sharedSends)

/-- Those above their limit play no part: they are not kept, and do not move the mark. -/
theorem recordsWithin_filter {α : Type} (key limit : α → Nat) (v : Nat) (xs : List α) : recordsWithin key limit v xs = records key v (xs.filter (fun x => decide (key x ≤ limit x))) := by
  induction xs generalizing v with
  | nil => rfl
  | cons x xs ih =>
    simp only [recordsWithin, List.filter_cons]
    by_cases h : key x ≤ limit x
    · simp only [h, and_true, decide_true, if_true, records]
      split <;> rw [ih]
    · simp only [h, and_false, decide_false, if_false, Bool.false_eq_true]
      exact ih v

theorem records_increasing {α : Type} (key : α → Nat) (v : Nat) (xs : List α) (hv : ∀ x ∈ xs, v < key x) (hp : xs.Pairwise (fun x y => key x < key y)) : records key v xs = xs := by
  induction xs generalizing v with
  | nil => rfl
  | cons x xs ih =>
    simp only [records]
    rw [if_pos (hv x (by simp)), ih (key x) (fun y hy => (List.pairwise_cons.1 hp).1 y hy) (List.pairwise_cons.1 hp).2]

section
variable {ι : Type} [DecidableEq ι]

theorem requestsOf_increasing (hash : List Char → U64) (i : ι) (ts : List (SharedSend ι)) (c : ι → Nat) (h : ∀ t ∈ ts, t.who = i) :
    (requestsOf hash c ts).Pairwise (fun x y => x.counter < y.counter) := by
  induction ts generalizing c with
  | nil => exact .nil
  | cons t ts ih =>
    have ht := h t (by simp)
    simp only [requestsOf]
    rw [List.pairwise_append]
    refine ⟨?_, ih _ (fun u hu => h u (by simp [hu])), ?_⟩
    · unfold requestsOfSend
      rw [List.pairwise_map]
      exact List.Pairwise.imp (fun h => by simp only; omega) List.pairwise_lt_range
    · intro x hx y hy
      obtain ⟨j, hj, rfl⟩ := List.mem_map.1 hx
      rw [List.mem_range] at hj
      obtain ⟨h1, _, u, hu, hw⟩ := requestsOf_bounds hash ts _ y hy
      have hi : y.who = t.who := by rw [← hw, h u (by simp [hu]), ht]
      rw [hi, setAt_same] at h1
      simp only
      omega

/-- **C101.** Any number of machines share a key, and all clocks may be wrong: each machine's, and the server's, which may jump forth and back between arrivals (`r.now`: what it says when request `r` arrives).
The server hands to the commander exactly the requests that, among those not further ahead of its clock than the tolerated skew, exceed its counter and all handed over before. A request that is too far
ahead plays no part: all others are treated as if it had not been made. The machines' own clocks do not occur. -/
theorem C101_served_by_clock (A : Aead) (hA : A.Correct) (hash : List Char → U64) (s : Server) (hb : s.bl.Wf) (hlen : s.bl.map.length < 2 ^ 32) (w : World) (listed : List Ip)
    (hips : s.cfg.ips = loadIps listed) (h : CryptoHandler) (hkey : s.handlers.get h.id = some h) (v : U128) (hv : s.bl.map.get h.id = some v) (dir : ι → Path) (m : ι → World) (c : ι → Nat)
    (hc : ∀ i, counterOnDisk (m i) (counterPath (dir i)) = some (c i)) (ts : List (SharedSend ι)) (hok : ∀ t ∈ ts, SharedFit listed h t)
    (hroom : ∀ i, c i + total i ts < 2 ^ 128) (hlim : NotLimited (deliver A s w (sharedSends A hash dir m ts)).2.2) :
    handed (deliver A s w (sharedSends A hash dir m ts)).2.1.log = handed w.log ++
      (records SharedRequest.counter v.toNat ((requestsOf hash c ts).filter (fun r => decide (r.counter ≤ r.now + s.cfg.skewSeconds.toNat * 1000000000)))).map
        (fun r => (r.counter, (CommanderData.mk r.cmdHash r.ip).toBytes)) := by
  rw [shared_served A hA hash s hb hlen w listed hips h hkey v hv dir m c hc ts hok hroom hlim, recordsWithin_filter]

/-- **C101, one user.** If one machine alone uses the key and its counter is not behind the server's, a request is served if and only if its counter is not further ahead of the server's clock than the tolerated
skew. So wrong clocks delay service and have no other effect: nothing is refused because of earlier refusals, because a clock was set back, or because the machine's own clock is wrong. -/
theorem C101_one_user (A : Aead) (hA : A.Correct) (hash : List Char → U64) (s : Server) (hb : s.bl.Wf) (hlen : s.bl.map.length < 2 ^ 32) (w : World) (listed : List Ip)
    (hips : s.cfg.ips = loadIps listed) (h : CryptoHandler) (hkey : s.handlers.get h.id = some h) (v : U128) (hv : s.bl.map.get h.id = some v) (dir : Path) (m : World) (c : Nat)
    (hc : counterOnDisk m (counterPath dir) = some c) (hle : v.toNat ≤ c) (ts : List (SharedSend Unit)) (hok : ∀ t ∈ ts, SharedFit listed h t)
    (hroom : c + total () ts < 2 ^ 128) (hlim : NotLimited (deliver A s w (sharedSends A hash (fun _ => dir) (fun _ => m) ts)).2.2) :
    handed (deliver A s w (sharedSends A hash (fun _ => dir) (fun _ => m) ts)).2.1.log = handed w.log ++
      ((requestsOf hash (fun _ => c) ts).filter (fun r => decide (r.counter ≤ r.now + s.cfg.skewSeconds.toNat * 1000000000))).map
        (fun r => (r.counter, (CommanderData.mk r.cmdHash r.ip).toBytes)) := by
  rw [C101_served_by_clock A hA hash s hb hlen w listed hips h hkey v hv (fun _ => dir) (fun _ => m) (fun _ => c) (fun _ => hc) ts hok (fun _ => hroom) hlim]
  rw [records_increasing]
  · intro r hr
    have := (requestsOf_bounds hash ts _ r (List.mem_filter.1 hr).1).1
    omega
  · exact (requestsOf_increasing hash () ts _ (fun _ _ => rfl)).filter _

/-- **C101, the delay ends by itself.** From the moment the server's clock has caught up with the counters (up to the skew) every request is among those served. -/
theorem C101_caught_up (hash : List Char → U64) (skew : Nat) (pre post : List (SharedSend ι)) (c : ι → Nat)
    (hup : ∀ t ∈ post, ∀ j, c t.who + total t.who (pre ++ post) ≤ (t.meets j).now.toNat + skew) :
    (requestsOf hash c (pre ++ post)).filter (fun r => decide (r.counter ≤ r.now + skew)) =
      (requestsOf hash c pre).filter (fun r => decide (r.counter ≤ r.now + skew)) ++ requestsOf hash (fun i => c i + total i pre) post := by
  rw [requestsOf_append, List.filter_append]
  congr 1
  rw [List.filter_eq_self]
  intro r hr
  have := requestsOf_now hash skew post (fun i => c i + total i pre) (by
    intro t ht j
    have := hup t ht j
    rw [total_append] at this
    omega) r hr
  simpa using this

/-- **C101, the documentation.** docs/src/architecture/security.md:120-121 and README.md:256-257 recommend `reseed` after the client's clock has jumped back. But the counter in use does not depend on the clock (`C101_one_user`),
and reseeding with a clock that is behind is what locks the machine out: none of its requests is served until it has made as many as its clock is behind, in nanoseconds. -/
theorem C101_reseed_behind_locks_out (hash : List Char → U64) (i : ι) (dir : ι → Path) (m : ι → World) (c : ι → Nat) (v : Nat) (held : Bool) (w' : World)
    (hrun : runReseed (dir i) held (m i) = (.ok (), w')) (ts : List (SharedSend ι)) (hclk : ∀ x, some x ∈ (m i).clock → x.toNat + total i ts ≤ v) (skew : Nat) :
    ∃ n, counterOnDisk w' (counterPath (dir i)) = some n ∧ some (BitVec.ofNat 128 n) ∈ (m i).clock ∧
      ∀ r ∈ records SharedRequest.counter v ((requestsOf hash (setAt c i n) ts).filter (fun r => decide (r.counter ≤ r.now + skew))), r.who ≠ i := by
  have hs := runReseed_spec (dir i) held (m i)
  unfold wp at hs
  rw [hrun] at hs
  obtain ⟨_, hs⟩ := hs
  obtain ⟨x, f, hx, hf, hd, _⟩ := hs rfl
  refine ⟨x.toNat, ?_, by rw [BitVec.ofNat_toNat, BitVec.setWidth_eq]; exact hx, ?_⟩
  · unfold counterOnDisk
    rw [hf]
    simp only [hd]
    rw [if_pos (by simp), List.take_of_length_le (by simp)]
    rw [ofBE_beBytes, Nat.mod_eq_of_lt (by have := x.isLt; omega)]
  · intro r hr hw
    obtain ⟨pre, post, he, hlt, _⟩ := (records_iff _ _ _ _).1 hr
    have hm : r ∈ requestsOf hash (setAt c i x.toNat) ts := by
      have : r ∈ (requestsOf hash (setAt c i x.toNat) ts).filter (fun r => decide (r.counter ≤ r.now + skew)) := by rw [he]; simp
      exact (List.mem_filter.1 this).1
    obtain ⟨_, h2, _⟩ := requestsOf_bounds hash ts _ r hm
    rw [hw, setAt_same] at h2
    have := hclk x hx
    omega

end

/-! ## Concrete case -/

/-- `send -4 --permissive --ip 8.8.8.8`; the server's clock says `now` when it arrives. The machine's own clock says 5. -/
def exClock (now : U128) (src : Ip) : SharedSend Unit where
  who := ()
  cmd := { exOpen with ipv4 := true }
  env := exClientEnv exClientKey
  clock := List.replicate 3 (some 5)
  dsts := [⟨.v4 0x0a000002, 80⟩]
  claimed := some (.v4 0x08080808)
  meets := fun _ => ⟨[], src, exReadings, 0, now, now⟩

theorem exClock_fit (now : U128) (src : Ip) : SharedFit [.v6 0xffff0a000002] exSenderKey (exClock now src) where
  readings := fun r hr => by
    rw [List.eq_of_mem_replicate (show r ∈ List.replicate 3 (some (5 : U128)) from hr)]
    exact nofun
  enough := Nat.le_of_ble_eq_true rfl
  some := nofun
  address := (exTwin_ok true src 0 (Nat.zero_le _)).address
  ip := (exTwin_ok true src 0 (Nat.zero_le _)).ip
  claim := (exTwin_ok true src 0 (Nat.zero_le _)).claim
  key := (exTwin_ok true src 0 (Nat.zero_le _)).key
  random := fun i => ⟨_, rfl, by simp⟩
  dst := (exTwin_ok true src 0 (Nat.zero_le _)).dst
  src := nofun

/-- The server's clock: at the limit, not caught up, ahead, set back, and caught up. -/
def exClockRuns : List (SharedSend Unit) := [exClock 1000 (.v4 1), exClock 1000 (.v4 2), exClock 5000 (.v4 3), exClock 7 (.v4 4), exClock 1004 (.v4 5)]

theorem exClock_limits : NotLimited (deliver toyAead exServer exEmpty (sharedSends toyAead exHash (fun _ => "/c".toList) (fun _ => exDisk (some (beBytes 16 3600000000999)) []) exClockRuns)).2.2 := by
  unfold NotLimited
  decide +kernel

/-- The hypotheses of C101 are met, and what it says: with the server's clock at the limit the request is served, then it is too far ahead, then the clock is ahead, then set back by far, then at the limit again. -/
example : (handed (deliver toyAead exServer exEmpty (sharedSends toyAead exHash (fun _ => "/c".toList) (fun _ => exDisk (some (beBytes 16 3600000000999)) []) exClockRuns)).2.1.log).map Prod.fst =
    [3600000001000, 3600000001002, 3600000001004] := by
  rw [C101_one_user toyAead toyAead_correct exHash exServer exServer_wf (by decide +kernel) exEmpty [.v6 0xffff0a000002] rfl exSenderKey (by decide +kernel) 4000 (by decide +kernel)
    "/c".toList (exDisk (some (beBytes 16 3600000000999)) []) 3600000000999 (by decide +kernel) (by decide +kernel) exClockRuns
    (by
      intro t ht
      simp only [exClockRuns, List.mem_cons, List.not_mem_nil, or_false] at ht
      rcases ht with rfl | rfl | rfl | rfl | rfl <;> exact exClock_fit _ _)
    (by decide +kernel) exClock_limits]
  decide +kernel

/-- After its clock was set back from beyond 5003 to 100 the machine `true` of C98 is reseeded: its three requests are refused, although without reseeding all would be served. -/
example : (records SharedRequest.counter 5003 ((requestsOf exHash (setAt exTwinCounter true 100) [exTwin true (.v4 1), exTwin true (.v4 2), exTwin true (.v4 3)]).filter
      (fun r => decide (r.counter ≤ r.now + 3600000000000)))).length = 0 ∧
    (records SharedRequest.counter 5003 ((requestsOf exHash (setAt exTwinCounter true 5003) [exTwin true (.v4 1), exTwin true (.v4 2), exTwin true (.v4 3)]).filter
      (fun r => decide (r.counter ≤ r.now + 3600000000000)))).length = 3 := by decide +kernel

end Ruroco
