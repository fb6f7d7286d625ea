import Verif.Spec.SharedKey
import Verif.Props.EndToEnd
import Verif.Props.KeyLife
import Verif.Props.Reseed
import Verif.Spec.Terms.SharedKey

/-!
# C98: machines that share a key
-/

namespace Ruroco

open Spec (datagrams Seals Acceptable forwards message SameHost counterOnDisk records recordsWithin SharedSend setAt total SharedRequest requestsOfSend requestsOf sharedSends)

/-! ## Requests under one key reach the server -/

/-- Everything about a datagram but its counter is as the server wants it: `d` is what it says, `h` the key. -/
structure ExceptCounter (A : Aead) (s : Server) (h : CryptoHandler) (a : Arrival) (d : ClientData) : Prop where
  size : 94 ≤ a.dg.length
  id : a.dg.take 8 = h.id
  sealed : Seals A h.key a.dg d
  dst : d.dstIp ∈ s.cfg.ips
  src : d.strict = true → ∀ ip, d.srcIp = some ip → SameHost ip a.src

theorem seals_inj {A : Aead} {k : List Byte} {dg : List Byte} {d d' : ClientData} (h : Seals A k dg d) (h' : Seals A k dg d') : d = d' := by
  obtain ⟨pt, e1, _, e2⟩ := h
  obtain ⟨pt', e1', _, e2'⟩ := h'
  rw [e1] at e1'
  cases e1'
  rw [e2] at e2'
  cases e2'
  rfl

theorem deliver_records (A : Aead) (h : CryptoHandler) (xs : List (Arrival × ClientData)) (s : Server) (hb : s.bl.Wf) (hlen : s.bl.map.length < 2 ^ 32) (w : World) (v : U128)
    (hkey : s.handlers.get h.id = some h) (hv : s.bl.map.get h.id = some v) (hx : ∀ x ∈ xs, ExceptCounter A s h x.1 x.2)
    (hlim : NotLimited (deliver A s w (xs.map Prod.fst)).2.2) :
    forwards (deliver A s w (xs.map Prod.fst)).2.1.log = forwards w.log ++
      (recordsWithin (fun x => x.2.counter.toNat) (fun x => x.1.now.toNat + s.cfg.skewSeconds.toNat * 1000000000) v.toNat xs).map (fun x => (x.1.dg.take 94, x.2.counter, message x.2 (normalizeIp x.1.src))) := by
  induction xs generalizing s w v with
  | nil => simp [deliver, recordsWithin]
  | cons x xs ih =>
    obtain ⟨a, d⟩ := x
    obtain ⟨s', r, w', he, hb', hlen', hcfg, hh, hcase⟩ := arrival_cases A s hb hlen w a
    simp only [List.map_cons, deliver, he] at hlim ⊢
    obtain ⟨hl1, hl2⟩ := hlim
    simp only [List.mem_cons, not_or] at hl1 hl2
    obtain ⟨hacc, hrej⟩ := hcase (Ne.symm hl1.1) (Ne.symm hl2.1)
    have ha := hx (a, d) (by simp)
    simp only at ha
    have hx' : ∀ y ∈ xs, ExceptCounter A s' h y.1 y.2 := by
      intro y hy
      have := hx y (by simp [hy])
      exact ⟨this.size, this.id, this.sealed, by rw [hcfg]; exact this.dst, this.src⟩
    have hkey' : s'.handlers.get h.id = some h := by rw [hh]; exact hkey
    by_cases hc : v.toNat < d.counter.toNat ∧ d.counter.toNat ≤ a.now.toNat + s.cfg.skewSeconds.toNat * 1000000000
    · obtain ⟨hbl, hf⟩ := hacc d ⟨ha.size, ⟨h, by rw [ha.id]; exact hkey, ha.sealed⟩, ⟨v, by rw [ha.id]; exact hv, hc.1⟩, hc.2, ha.dst, ha.src⟩
      have hv' : s'.bl.map.get h.id = some d.counter := by
        rw [hbl, ha.id]
        show (s.bl.map.insert _ _).get _ = _
        rw [BlMap.get_insert, if_pos rfl]
      rw [ih s' hb' hlen' w' d.counter hkey' hv' hx' ⟨hl1.2, hl2.2⟩, hf, hcfg]
      simp [recordsWithin, hc]
    · obtain ⟨hbl, hf⟩ := hrej (by
        intro d' hd'
        obtain ⟨h', hg, hs⟩ := hd'.sealed
        rw [ha.id, hkey] at hg
        cases hg
        have := seals_inj hs ha.sealed
        subst this
        obtain ⟨v', hg', hlt⟩ := hd'.fresh
        rw [ha.id, hv] at hg'
        cases hg'
        exact hc ⟨hlt, hd'.notFuture⟩)
      rw [ih s' hb' hlen' w' v hkey' (by rw [hbl]; exact hv) hx' ⟨hl1.2, hl2.2⟩, hf, hcfg]
      simp [recordsWithin, hc]

/-! ## Which are kept -/

theorem records_map {α β : Type} (f : α → β) (key : β → Nat) (v : Nat) (xs : List α) : records key v (xs.map f) = (records (fun x => key (f x)) v xs).map f := by
  induction xs generalizing v with
  | nil => rfl
  | cons x xs ih =>
    simp only [List.map_cons, records]
    split
    · rw [ih]; rfl
    · rw [ih]

/-- The mark after these. -/
def markAfter {α : Type} (key : α → Nat) : Nat → List α → Nat
  | v, [] => v
  | v, x :: xs => markAfter key (max v (key x)) xs

theorem records_append {α : Type} (key : α → Nat) (v : Nat) (xs ys : List α) : records key v (xs ++ ys) = records key v xs ++ records key (markAfter key v xs) ys := by
  induction xs generalizing v with
  | nil => rfl
  | cons x xs ih =>
    simp only [List.cons_append, records, markAfter]
    split
    · rw [ih, Nat.max_eq_right (by omega)]; rfl
    · rw [ih, Nat.max_eq_left (by omega)]

theorem markAfter_le {α : Type} {key : α → Nat} {b : Nat} {xs : List α} (h : ∀ x ∈ xs, key x ≤ b) {v : Nat} (hv : v ≤ b) : markAfter key v xs ≤ b := by
  induction xs generalizing v with
  | nil => exact hv
  | cons x xs ih => exact ih (fun y hy => h y (by simp [hy])) (by have := h x (by simp); omega)

/-- What the records are: a member at some place that exceeds the first mark and all before it. -/
theorem records_iff {α : Type} (key : α → Nat) (v : Nat) (xs : List α) (x : α) :
    x ∈ records key v xs ↔ ∃ pre post, xs = pre ++ x :: post ∧ v < key x ∧ ∀ y ∈ pre, key y < key x := by
  induction xs generalizing v with
  | nil => simp [records]
  | cons y ys ih =>
    simp only [records]
    constructor
    · intro h
      split at h
      · rename_i hy
        rcases List.mem_cons.1 h with rfl | h
        · exact ⟨[], ys, rfl, hy, by simp⟩
        · obtain ⟨pre, post, rfl, h1, h2⟩ := (ih _).1 h
          refine ⟨y :: pre, post, rfl, by omega, ?_⟩
          intro z hz
          rcases List.mem_cons.1 hz with rfl | hz
          · exact h1
          · exact h2 z hz
      · rename_i hy
        obtain ⟨pre, post, rfl, h1, h2⟩ := (ih _).1 h
        refine ⟨y :: pre, post, rfl, h1, ?_⟩
        intro z hz
        rcases List.mem_cons.1 hz with rfl | hz
        · omega
        · exact h2 z hz
    · rintro ⟨pre, post, heq, h1, h2⟩
      cases pre with
      | nil =>
        injection heq with e1 e2
        subst e1
        rw [if_pos h1]
        simp
      | cons z pre =>
        injection heq with e1 e2
        subst e1
        have hz := h2 y (by simp)
        have h2' : ∀ u ∈ pre, key u < key x := fun u hu => h2 u (by simp [hu])
        split
        · exact List.mem_cons_of_mem _ ((ih _).2 ⟨pre, post, e2, hz, h2'⟩)
        · exact (ih _).2 ⟨pre, post, e2, h1, h2'⟩

theorem batch_records {ι : Type} (key : ι → Nat) (f : Nat → ι) (c n v : Nat) (hv : v ≤ c) (hf : ∀ j, key (f j) = c + 1 + j) :
    records key v ((List.range n).map f) = (List.range n).map f ∧ markAfter key v ((List.range n).map f) = if n = 0 then v else c + n := by
  induction n with
  | zero => simp [records, markAfter]
  | succ n ih =>
    have hm : ∀ xs (y : ι), markAfter key v (xs ++ [y]) = max (markAfter key v xs) (key y) := by
      intro xs y
      clear ih hv
      induction xs generalizing v with
      | nil => rfl
      | cons x xs ih => exact ih _
    rw [List.range_succ, List.map_append, records_append, ih.1, List.map_singleton, hm, ih.2, hf]
    have hlt : (if n = 0 then v else c + n) < c + 1 + n := by split <;> omega
    refine ⟨?_, ?_⟩
    · simp [records, hf, hlt]
    · simp; omega

/-! ## The machines -/

variable {ι : Type} [DecidableEq ι]

theorem total_cons (i : ι) (t : SharedSend ι) (ts : List (SharedSend ι)) : total i (t :: ts) = (if t.who = i then t.dsts.length else 0) + total i ts := by
  unfold total
  by_cases h : t.who = i <;> simp [h]

theorem total_append (i : ι) (xs ys : List (SharedSend ι)) : total i (xs ++ ys) = total i xs + total i ys := by
  unfold total
  simp

theorem setAt_same {α : Type} (f : ι → α) (i : ι) (a : α) : setAt f i a i = a := if_pos rfl

theorem setAt_ne {α : Type} (f : ι → α) {i j : ι} (a : α) (h : j ≠ i) : setAt f i a j = f j := if_neg h

/-- The counters of a machine lie above its last one, below the one it will end with. -/
theorem requestsOf_bounds (hash : List Char → U64) (ts : List (SharedSend ι)) (c : ι → Nat) (r : SharedRequest ι) (h : r ∈ requestsOf hash c ts) :
    c r.who < r.counter ∧ r.counter ≤ c r.who + total r.who ts ∧ ∃ t ∈ ts, t.who = r.who := by
  induction ts generalizing c with
  | nil => simp [requestsOf] at h
  | cons t ts ih =>
    rw [total_cons]
    rcases List.mem_append.1 h with h | h
    · obtain ⟨j, hj, rfl⟩ := List.mem_map.1 h
      rw [List.mem_range] at hj
      simp only [if_true]
      refine ⟨by omega, by omega, t, by simp, rfl⟩
    · obtain ⟨h1, h2, u, hu, hw⟩ := ih _ h
      refine ⟨?_, ?_, u, by simp [hu], hw⟩
      · by_cases he : r.who = t.who
        · rw [he, setAt_same] at h1; rw [he]; omega
        · rw [setAt_ne _ _ he] at h1; exact h1
      · by_cases he : r.who = t.who
        · rw [he, setAt_same] at h2; rw [he, if_pos rfl]; omega
        · rw [setAt_ne _ _ he] at h2; omega

theorem requestsOf_append (hash : List Char → U64) (xs ys : List (SharedSend ι)) (c : ι → Nat) :
    requestsOf hash c (xs ++ ys) = requestsOf hash c xs ++ requestsOf hash (fun i => c i + total i xs) ys := by
  induction xs generalizing c with
  | nil => simp [requestsOf, total]
  | cons t xs ih =>
    simp only [List.cons_append, requestsOf, List.append_assoc]
    rw [ih]
    congr 3
    funext i
    rw [total_cons]
    by_cases h : i = t.who
    · subst h; rw [setAt_same, if_pos rfl]; omega
    · rw [setAt_ne _ _ h, if_neg (Ne.symm h)]; omega

theorem records_leading (hash : List Char → U64) (i : ι) (ts : List (SharedSend ι)) (c : ι → Nat) (v : Nat) (hv : v ≤ c i) (ho : ∀ j, j ≠ i → c j + total j ts ≤ v) :
    records SharedRequest.counter v (requestsOf hash c ts) = (requestsOf hash c ts).filter (fun r => decide (r.who = i)) := by
  induction ts generalizing c v with
  | nil => rfl
  | cons t ts ih =>
    simp only [requestsOf]
    rw [records_append, List.filter_append]
    have hto : ∀ j, j ≠ i → setAt c t.who (c t.who + t.dsts.length) j + total j ts = c j + total j (t :: ts) := by
      intro j _
      rw [total_cons]
      by_cases h : j = t.who
      · subst h; rw [setAt_same, if_pos rfl]; omega
      · rw [setAt_ne _ _ h, if_neg (Ne.symm h)]; omega
    by_cases h : t.who = i
    · obtain ⟨h1, h2⟩ := batch_records (SharedRequest.counter (ι := ι)) (fun j => (⟨t.who, c t.who + 1 + j, (t.meets j).now.toNat, hash t.cmd.command, normalizeIp (t.claimed.getD (t.meets j).src)⟩ : SharedRequest ι))
        (c t.who) t.dsts.length v (by rw [h]; exact hv) (fun j => rfl)
      unfold requestsOfSend
      rw [h1, h2]
      congr 1
      · rw [List.filter_eq_self.2]
        intro r hr
        obtain ⟨j, _, rfl⟩ := List.mem_map.1 hr
        simpa using h
      · refine ih _ _ ?_ ?_
        · subst h
          rw [setAt_same]; split <;> omega
        · intro j hj
          rw [hto j hj]
          have := ho j hj
          subst h
          split <;> omega
    · have hsmall : ∀ r ∈ requestsOfSend hash (c t.who) t, r.counter ≤ v := by
        intro r hr
        have := ho t.who h
        rw [total_cons, if_pos rfl] at this
        obtain ⟨j, hj, rfl⟩ := List.mem_map.1 hr
        rw [List.mem_range] at hj
        simp only
        omega
      have e1 : records SharedRequest.counter v (requestsOfSend hash (c t.who) t) = [] := by
        apply List.eq_nil_iff_forall_not_mem.2
        intro r hr
        obtain ⟨pre, post, he, hlt, _⟩ := (records_iff _ _ _ _).1 hr
        have := hsmall r (by rw [he]; simp)
        omega
      have e2 : (requestsOfSend hash (c t.who) t).filter (fun r => decide (r.who = i)) = [] := by
        rw [List.filter_eq_nil_iff]
        intro r hr
        obtain ⟨j, _, rfl⟩ := List.mem_map.1 hr
        simpa using h
      have e3 : markAfter SharedRequest.counter v (requestsOfSend hash (c t.who) t) = v := by
        have hge : ∀ (xs : List (SharedRequest ι)) (v : Nat), v ≤ markAfter SharedRequest.counter v xs := by
          intro xs
          induction xs with
          | nil => exact fun v => Nat.le_refl v
          | cons x xs ih => exact fun v => Nat.le_trans (Nat.le_max_left _ _) (ih _)
        exact Nat.le_antisymm (markAfter_le hsmall (Nat.le_refl v)) (hge _ _)
      rw [e1, e2, e3]
      congr 1
      refine ih _ _ ?_ ?_
      · rw [setAt_ne _ _ (Ne.symm h)]; exact hv
      · intro j hj
        rw [hto j hj]
        exact ho j hj

/-! ## The sends -/

omit [DecidableEq ι] in
theorem send_shared (A : Aead) (hA : A.Correct) (hash : List Char → U64) (s : Server) (listed : List Ip) (hips : s.cfg.ips = loadIps listed) (h : CryptoHandler) (t : SharedSend ι)
    (c : Nat) (dir : Path) (w : World) (hok : SharedFit listed h t) (hc : counterOnDisk w (counterPath dir) = some c) (hroom : c + t.dsts.length < 2 ^ 128) :
    let w0 := w.withEnv ⟨[], t.clock⟩ []
    let w' := (runSend A hash dir false t.cmd t.env w0).2
    counterOnDisk w' (counterPath dir) = some (c + t.dsts.length) ∧
    ∃ xs : List (Arrival × ClientData), ((datagrams w'.log).drop (datagrams w0.log).length).mapIdx (fun j x => { t.meets j with dg := x.2.2.2 }) = xs.map Prod.fst ∧
      (∀ x ∈ xs, ExceptCounter A s h x.1 x.2) ∧
      xs.map (fun x => (x.2.counter.toNat, x.1.now.toNat, message x.2 (normalizeIp x.1.src))) = (requestsOfSend hash c t).map (fun r => (r.counter, r.now, (CommanderData.mk r.cmdHash r.ip).toBytes)) := by
  intro w0 w'
  have hcn : (BitVec.ofNat 128 c).toNat = c := by rw [BitVec.toNat_ofNat]; exact Nat.mod_eq_of_lt (by omega)
  have hcan : CanSend dir t.cmd t.env w0 h t.claimed t.dsts (BitVec.ofNat 128 c) :=
    ⟨⟨fun x hx => (nomatch (show x ∈ ([] : List Choice) from hx)), hok.readings, hok.enough⟩, hok.address, hok.ip, hok.key, hok.random, Or.inl (by rw [hcn]; exact hc), by rw [hcn]; exact hroom⟩
  have hs := runSend_ok hA hash dir t.cmd t.env w0 h t.claimed t.dsts _ hcan
  unfold wp at hs
  change _ ∧ (_ → counterOnDisk w' _ = _) ∧ ∃ l, datagrams w'.log = _ ∧ _ at hs
  obtain ⟨_, hd, l, hl, hlen, hall⟩ := hs
  rw [hcn] at hd hall
  refine ⟨hd hok.some, ?_⟩
  rw [hl, List.drop_left]
  obtain ⟨text, hkt, hk⟩ := hok.key
  obtain ⟨_, hid, hkl⟩ := (create_ok_iff _ _).1 hk
  have hread : readSrc t.claimed = t.claimed.map normalizeIp := by
    have hcl := hok.claim
    cases hq : t.claimed with
    | none => rfl
    | some ip =>
      have : ip ≠ .v6 0 := fun h => hcl (by rw [hq, h])
      simp only [readSrc]
      rw [if_neg this]
      rfl
  have hat : ∀ j (x : Ip × Nat × U128 × List Byte), l[j]? = some x → ∃ a ctr iv bytes, t.dsts[j]? = some a ∧ ctr.toNat = c + 1 + j ∧ iv.length = 12 ∧
      encode A h (some iv) (ClientData.serialize { cmdHash := hash t.cmd.command, counter := ctr, strict := !t.cmd.permissive, srcIp := t.claimed, dstIp := a.ip }) = .ok bytes ∧
      x = (a.ip, a.port, ctr, bytes) := by
    intro j x hx
    have hj : j < t.dsts.length := by rw [← hlen]; exact (List.getElem?_eq_some_iff.1 hx).1
    obtain ⟨ctr, iv, bytes, h1, _, h2, h3, h4⟩ := hall j _ (List.getElem?_eq_getElem hj)
    rw [hx] at h4
    exact ⟨_, ctr, iv, bytes, List.getElem?_eq_getElem hj, h1, h2, h3, Option.some.inj h4⟩
  refine ⟨l.mapIdx (fun j x => (({ t.meets j with dg := x.2.2.2 } : Arrival),
    ({ cmdHash := hash t.cmd.command, counter := x.2.2.1, strict := !t.cmd.permissive, srcIp := readSrc t.claimed, dstIp := normalizeIp x.1 } : ClientData))), ?_, ?_, ?_⟩
  · apply List.ext_getElem
    · simp
    · intro j h1 h2
      simp
  · intro x hx
    obtain ⟨j, hj, rfl⟩ := List.mem_mapIdx.1 hx
    obtain ⟨a, ctr, iv, bytes, h1, h2, h3, h4, h5⟩ := hat j l[j] (List.getElem?_eq_getElem hj)
    rw [h5]
    obtain ⟨p1, p2, p3⟩ := packet_seals hA hid hkl h3 h4
    have hjlt : j < t.dsts.length := by rw [← hlen]; exact hj
    refine ⟨by simp only; omega, p2, p3, ?_, ?_⟩
    · obtain ⟨ip, hm, hsame⟩ := hok.dst a (List.mem_of_getElem? h1)
      rw [hips, loadIps, List.mem_map]
      exact ⟨ip, hm, ((normalizeIp_eq_iff_sameHost a.ip ip).2 hsame).symm⟩
    · intro hst ip hip
      simp only at hip hst ⊢
      rw [hread] at hip
      cases hq : t.claimed with
      | none => rw [hq] at hip; cases hip
      | some x =>
        rw [hq] at hip
        injection hip with hip
        rw [← normalizeIp_eq_iff_sameHost, ← hip, (C06_normalize_idempotent x).1]
        exact (normalizeIp_eq_iff_sameHost x _).2 (hok.src (by simpa using hst) x hq j)
  · apply List.ext_getElem
    · simp [requestsOfSend, hlen]
    · intro j h1 h2
      have hj : j < l.length := by simpa using h1
      obtain ⟨a, ctr, iv, bytes, e1, e2, e3, e4, e5⟩ := hat j l[j] (List.getElem?_eq_getElem hj)
      simp only [List.getElem_map, List.getElem_mapIdx, requestsOfSend, List.getElem_range, message]
      rw [e5, hread]
      simp only [e2]
      congr 4
      cases t.claimed <;> rfl

theorem sends_shared (A : Aead) (hA : A.Correct) (hash : List Char → U64) (s : Server) (listed : List Ip) (hips : s.cfg.ips = loadIps listed) (h : CryptoHandler) (dir : ι → Path)
    (ts : List (SharedSend ι)) (m : ι → World) (c : ι → Nat) (hc : ∀ i, counterOnDisk (m i) (counterPath (dir i)) = some (c i))
    (hok : ∀ t ∈ ts, SharedFit listed h t) (hroom : ∀ i, c i + total i ts < 2 ^ 128) :
    ∃ xs : List (Arrival × ClientData), sharedSends A hash dir m ts = xs.map Prod.fst ∧ (∀ x ∈ xs, ExceptCounter A s h x.1 x.2) ∧
      xs.map (fun x => (x.2.counter.toNat, x.1.now.toNat, message x.2 (normalizeIp x.1.src))) = (requestsOf hash c ts).map (fun r => (r.counter, r.now, (CommanderData.mk r.cmdHash r.ip).toBytes)) := by
  induction ts generalizing m c with
  | nil => exact ⟨[], rfl, by simp, rfl⟩
  | cons t ts ih =>
    have htot : ∀ i, setAt c t.who (c t.who + t.dsts.length) i + total i ts = c i + total i (t :: ts) := by
      intro j
      rw [total_cons]
      by_cases h : j = t.who
      · subst h; rw [setAt_same, if_pos rfl]; omega
      · rw [setAt_ne _ _ h, if_neg (Ne.symm h)]; omega
    have hr := hroom t.who
    rw [total_cons, if_pos rfl] at hr
    obtain ⟨hd, xs, hx1, hx2, hx3⟩ := send_shared A hA hash s listed hips h t (c t.who) (dir t.who) (m t.who) (hok t (by simp)) (hc t.who) (by omega)
    obtain ⟨ys, hy1, hy2, hy3⟩ := ih (setAt m t.who (runSend A hash (dir t.who) false t.cmd t.env ((m t.who).withEnv ⟨[], t.clock⟩ [])).2) (setAt c t.who (c t.who + t.dsts.length))
      (by
        intro i
        by_cases hi : i = t.who
        · subst hi; rw [setAt_same, setAt_same]; exact hd
        · rw [setAt_ne _ _ hi, setAt_ne _ _ hi]; exact hc i)
      (fun u hu => hok u (by simp [hu]))
      (by intro i; rw [htot]; exact hroom i)
    refine ⟨xs ++ ys, ?_, ?_, ?_⟩
    · simp only [sharedSends, List.map_append]
      rw [hx1, hy1]
    · intro x hx
      rcases List.mem_append.1 hx with hx | hx
      · exact hx2 x hx
      · exact hy2 x hx
    · simp only [requestsOf, List.map_append]
      rw [hx3, hy3]

omit [DecidableEq ι] in
theorem recordsWithin_map {α β : Type} (f : α → β) (key limit : β → Nat) (v : Nat) (xs : List α) :
    recordsWithin key limit v (xs.map f) = (recordsWithin (fun x => key (f x)) (fun x => limit (f x)) v xs).map f := by
  induction xs generalizing v with
  | nil => rfl
  | cons x xs ih =>
    simp only [List.map_cons, recordsWithin]
    split
    · rw [ih]; rfl
    · rw [ih]

omit [DecidableEq ι] in
theorem recordsWithin_all {α : Type} (key limit : α → Nat) (v : Nat) (xs : List α) (h : ∀ x ∈ xs, key x ≤ limit x) : recordsWithin key limit v xs = records key v xs := by
  induction xs generalizing v with
  | nil => rfl
  | cons x xs ih =>
    simp only [recordsWithin, records]
    have hx := h x (by simp)
    rw [ih _ (fun y hy => h y (by simp [hy])), ih _ (fun y hy => h y (by simp [hy]))]
    simp only [hx, and_true]

/-- Which requests are served, whatever the clocks say. -/
theorem shared_served (A : Aead) (hA : A.Correct) (hash : List Char → U64) (s : Server) (hb : s.bl.Wf) (hlen : s.bl.map.length < 2 ^ 32) (w : World) (listed : List Ip)
    (hips : s.cfg.ips = loadIps listed) (h : CryptoHandler) (hkey : s.handlers.get h.id = some h) (v : U128) (hv : s.bl.map.get h.id = some v) (dir : ι → Path) (m : ι → World) (c : ι → Nat)
    (hc : ∀ i, counterOnDisk (m i) (counterPath (dir i)) = some (c i)) (ts : List (SharedSend ι)) (hok : ∀ t ∈ ts, SharedFit listed h t)
    (hroom : ∀ i, c i + total i ts < 2 ^ 128) (hlim : NotLimited (deliver A s w (sharedSends A hash dir m ts)).2.2) :
    handed (deliver A s w (sharedSends A hash dir m ts)).2.1.log = handed w.log ++
      (recordsWithin SharedRequest.counter (fun r => r.now + s.cfg.skewSeconds.toNat * 1000000000) v.toNat (requestsOf hash c ts)).map (fun r => (r.counter, (CommanderData.mk r.cmdHash r.ip).toBytes)) := by
  obtain ⟨xs, h1, h2, h3⟩ := sends_shared A hA hash s listed hips h dir ts m c hc hok hroom
  rw [h1] at hlim ⊢
  unfold handed
  rw [deliver_records A h xs s hb hlen w v hkey hv h2 hlim, List.map_append, List.map_map]
  congr 1
  have e1 := recordsWithin_map (fun x : Arrival × ClientData => (x.2.counter.toNat, x.1.now.toNat, message x.2 (normalizeIp x.1.src))) Prod.fst (fun y => y.2.1 + s.cfg.skewSeconds.toNat * 1000000000) v.toNat xs
  have e2 := recordsWithin_map (fun r : SharedRequest ι => (r.counter, r.now, (CommanderData.mk r.cmdHash r.ip).toBytes)) Prod.fst (fun y => y.2.1 + s.cfg.skewSeconds.toNat * 1000000000) v.toNat
    (requestsOf hash c ts)
  rw [h3, e2] at e1
  have e3 := congrArg (List.map (fun y : Nat × Nat × List Byte => (y.1, y.2.2))) e1
  rw [List.map_map, List.map_map] at e3
  exact e3.symm

/-- Where the server's clock has reached a time, no counter up to it is too far ahead. -/
theorem requestsOf_now (hash : List Char → U64) (limit : Nat) (ts : List (SharedSend ι)) (c : ι → Nat) (h : ∀ t ∈ ts, ∀ j, c t.who + total t.who ts ≤ (t.meets j).now.toNat + limit) :
    ∀ r ∈ requestsOf hash c ts, r.counter ≤ r.now + limit := by
  induction ts generalizing c with
  | nil => nofun
  | cons t ts ih =>
    intro r hr
    rcases List.mem_append.1 hr with hr | hr
    · obtain ⟨j, hj, rfl⟩ := List.mem_map.1 hr
      rw [List.mem_range] at hj
      have := h t (by simp) j
      rw [total_cons, if_pos rfl] at this
      simp only
      omega
    · refine ih _ ?_ r hr
      intro u hu j
      have := h u (by simp [hu]) j
      rw [total_cons] at this
      by_cases he : u.who = t.who
      · rw [he, setAt_same]
        rw [he, if_pos rfl] at this
        omega
      · rw [setAt_ne _ _ he]
        rw [if_neg (Ne.symm he)] at this
        omega

/-- **C98.** Any number of machines `ι` use the same key `h`, each with its own counter (`c i` in the counter file of machine `i`); the server has that key and its counter stands at `v`. The machines
send, in any order, any number of requests for any commands (`ts`; nothing goes wrong on the way: `SharedOk`, and the limiter refuses nothing). Then the server hands to the commander exactly those requests
whose counter exceeds `v` and the counter of every request handed over before, in order: each machine's requests carry its own counter counting up by one, and no other property of machine or order matters. -/
theorem C98_shared_key (A : Aead) (hA : A.Correct) (hash : List Char → U64) (s : Server) (hb : s.bl.Wf) (hlen : s.bl.map.length < 2 ^ 32) (w : World) (listed : List Ip)
    (hips : s.cfg.ips = loadIps listed) (h : CryptoHandler) (hkey : s.handlers.get h.id = some h) (v : U128) (hv : s.bl.map.get h.id = some v) (dir : ι → Path) (m : ι → World) (c : ι → Nat)
    (hc : ∀ i, counterOnDisk (m i) (counterPath (dir i)) = some (c i)) (ts : List (SharedSend ι)) (hok : ∀ t ∈ ts, SharedOk s listed h t (c t.who + total t.who ts))
    (hroom : ∀ i, c i + total i ts < 2 ^ 128) (hlim : NotLimited (deliver A s w (sharedSends A hash dir m ts)).2.2) :
    handed (deliver A s w (sharedSends A hash dir m ts)).2.1.log = handed w.log ++
      (records SharedRequest.counter v.toNat (requestsOf hash c ts)).map (fun r => (r.counter, (CommanderData.mk r.cmdHash r.ip).toBytes)) := by
  rw [shared_served A hA hash s hb hlen w listed hips h hkey v hv dir m c hc ts (fun t ht => (hok t ht).toSharedFit) hroom hlim,
    recordsWithin_all _ _ _ _ (requestsOf_now hash _ ts c (fun t ht j => (hok t ht).time j))]

/-- **C98, the machine that leads.** If machine `i`'s counter is at least the server's and no other machine's counter ever gets beyond where `i`'s starts, then from `i`'s first request on exactly the
requests of machine `i` are kept, every one of them: the others' are refused, whoever sent last. Before it, the others are served as if `i` did not exist. -/
theorem C98_leader_served (hash : List Char → U64) (i : ι) (pre : List (SharedSend ι)) (t : SharedSend ι) (post : List (SharedSend ι)) (c : ι → Nat) (v : Nat) (ht : t.who = i) (hsome : t.dsts ≠ [])
    (hpre : ∀ u ∈ pre, u.who ≠ i) (hv : v ≤ c i) (ho : ∀ j, j ≠ i → c j + total j (pre ++ t :: post) ≤ c i) :
    records SharedRequest.counter v (requestsOf hash c (pre ++ t :: post)) = records SharedRequest.counter v (requestsOf hash c pre) ++
      (requestsOf hash (fun j => c j + total j pre) (t :: post)).filter (fun r => decide (r.who = i)) := by
  rw [requestsOf_append, records_append]
  congr 1
  have h0 : total i pre = 0 := by
    have : pre.filter (fun t => decide (t.who = i)) = [] := by
      rw [List.filter_eq_nil_iff]
      intro u hu
      simpa using hpre u hu
    unfold total
    rw [this]
    rfl
  have hmark : markAfter SharedRequest.counter v (requestsOf hash c pre) ≤ c i := by
    refine markAfter_le ?_ hv
    intro r hr
    obtain ⟨_, h2, u, hu, hw⟩ := requestsOf_bounds hash pre c r hr
    have hne : r.who ≠ i := by rw [← hw]; exact hpre u hu
    have := ho r.who hne
    rw [total_append] at this
    omega
  generalize markAfter SharedRequest.counter v (requestsOf hash c pre) = v' at hmark
  simp only [requestsOf]
  rw [records_append, List.filter_append]
  obtain ⟨h1, h2⟩ := batch_records (SharedRequest.counter (ι := ι))
    (fun j => (⟨t.who, c t.who + total t.who pre + 1 + j, (t.meets j).now.toNat, hash t.cmd.command, normalizeIp (t.claimed.getD (t.meets j).src)⟩ : SharedRequest ι))
    (c t.who + total t.who pre) t.dsts.length v' (by rw [ht]; omega) (fun j => rfl)
  unfold requestsOfSend
  have hn : t.dsts.length ≠ 0 := fun h => hsome (List.length_eq_zero_iff.1 h)
  rw [h1, h2, if_neg hn]
  congr 1
  · rw [List.filter_eq_self.2]
    intro r hr
    obtain ⟨j, _, rfl⟩ := List.mem_map.1 hr
    simpa using ht
  · refine records_leading hash i post _ _ ?_ ?_
    · rw [← ht, setAt_same]
      exact Nat.le_refl _
    · intro j hj
      have := ho j hj
      rw [total_append, total_cons] at this
      rw [setAt_ne _ _ (by rw [ht]; exact hj)]
      rw [ht, h0]
      omega

/-- **C98, `reseed`.** A successful `reseed` makes a machine lead if its clock is not behind the server's counter nor behind where any other machine's counter gets: from then on every one of its
requests is kept. -/
theorem C98_reseeded_leads (hash : List Char → U64) (i : ι) (dir : ι → Path) (m : ι → World) (c : ι → Nat) (v : Nat) (held : Bool) (w' : World) (hrun : runReseed (dir i) held (m i) = (.ok (), w'))
    (ts : List (SharedSend ι)) (hclk : ∀ x, some x ∈ (m i).clock → v ≤ x.toNat ∧ ∀ j, j ≠ i → c j + total j ts ≤ x.toNat) (hsome : ∀ t ∈ ts, t.dsts ≠ []) :
    ∃ n, counterOnDisk w' (counterPath (dir i)) = some n ∧ ∀ r ∈ requestsOf hash (setAt c i n) ts, r.who = i → r ∈ records SharedRequest.counter v (requestsOf hash (setAt c i n) ts) := by
  have hs := runReseed_spec (dir i) held (m i)
  unfold wp at hs
  rw [hrun] at hs
  obtain ⟨_, hs⟩ := hs
  obtain ⟨x, f, hx, hf, hd, _⟩ := hs rfl
  obtain ⟨h1, h2⟩ := hclk x hx
  refine ⟨x.toNat, ?_, ?_⟩
  · unfold counterOnDisk
    rw [hf]
    simp only [hd]
    rw [if_pos (by simp), List.take_of_length_le (by simp)]
    rw [ofBE_beBytes, Nat.mod_eq_of_lt (by have := x.isLt; omega)]
  · intro r hr hw
    -- the first run of machine `i`
    have hsplit : ∀ us : List (SharedSend ι), (∃ t ∈ us, t.who = i) → ∃ pre t post, us = pre ++ t :: post ∧ t.who = i ∧ ∀ u ∈ pre, u.who ≠ i := by
      intro us
      induction us with
      | nil => rintro ⟨t, ht, _⟩; cases ht
      | cons u us ih =>
        rintro ⟨t, ht, hti⟩
        by_cases hu : u.who = i
        · exact ⟨[], u, us, rfl, hu, by simp⟩
        · rcases List.mem_cons.1 ht with rfl | ht
          · exact absurd hti hu
          · obtain ⟨pre, t', post, rfl, e1, e2⟩ := ih ⟨t, ht, hti⟩
            refine ⟨u :: pre, t', post, rfl, e1, ?_⟩
            intro z hz
            rcases List.mem_cons.1 hz with rfl | hz
            · exact hu
            · exact e2 z hz
    obtain ⟨_, _, t0, ht0, hw0⟩ := requestsOf_bounds hash ts _ r hr
    obtain ⟨pre, t, post, rfl, e1, e2⟩ := hsplit ts ⟨t0, ht0, by rw [hw0, hw]⟩
    have hlead := C98_leader_served hash i pre t post (setAt c i x.toNat) v e1 (hsome t (by simp)) e2 (by rw [setAt_same]; exact h1)
      (by intro j hj; rw [setAt_same, setAt_ne _ _ hj]; exact h2 j hj)
    rw [hlead]
    rw [requestsOf_append] at hr
    rcases List.mem_append.1 hr with hr | hr
    · obtain ⟨_, _, u, hu, hwu⟩ := requestsOf_bounds hash pre _ r hr
      exact absurd (by rw [hwu, hw]) (e2 u hu)
    · exact List.mem_append_right _ (List.mem_filter.2 ⟨hr, by simpa using hw⟩)

/-! ## Concrete case, and the documentation -/

/-- `send -4 --permissive --ip 8.8.8.8`, on machine `b`, the datagram arriving from `src`. -/
def exTwin (b : Bool) (src : Ip) : SharedSend Bool where
  who := b
  cmd := { exOpen with ipv4 := true }
  env := exClientEnv exClientKey
  clock := List.replicate 3 (some 1763290000000000000)
  dsts := [⟨.v4 0x0a000002, 80⟩]
  claimed := some (.v4 0x08080808)
  meets := fun _ => ⟨[], src, exReadings, 0, 1000, 1000⟩

theorem exTwin_ok (b : Bool) (src : Ip) (bound : Nat) (hbound : bound ≤ 3600000001000) : SharedOk exServer [.v6 0xffff0a000002] exSenderKey (exTwin b src) bound where
  readings := fun r hr => by
    rw [List.eq_of_mem_replicate (show r ∈ List.replicate 3 (some (1763290000000000000 : U128)) from hr)]
    exact nofun
  enough := Nat.le_of_ble_eq_true rfl
  some := nofun
  address := ⟨"host:80".toList, by show ensurePort "host".toList DEFAULT_PORT = _; decide +kernel, by
    show getDestinationIps true false (some [⟨.v4 0x0a000002, 80⟩, ⟨.v6 1, 80⟩]) = .ok [⟨.v4 0x0a000002, 80⟩]
    decide +kernel⟩
  ip := by show parseIpOption (some "8.8.8.8".toList) = .ok (some (.v4 0x08080808)); decide +kernel
  claim := by show some (Ip.v4 0x08080808) ≠ some (.v6 0); decide
  key := ⟨exClientKey, rfl, by decide +kernel⟩
  random := fun i => ⟨_, rfl, by simp⟩
  dst := fun a ha => by
    have : a = (⟨.v4 0x0a000002, 80⟩ : SockAddr) := by simpa [exTwin] using ha
    subst this
    exact exServer_admits.dst
  src := nofun
  time := fun j => by
    have : (exTwin b src).meets j = ⟨[], src, exReadings, 0, 1000, 1000⟩ := rfl
    rw [this]
    simp only
    have h1 : (1000 : U128).toNat = 1000 := by decide +kernel
    have h2 : exServer.cfg.skewSeconds.toNat = 3600 := by decide +kernel
    rw [h1, h2]
    omega

/-- Machine `true` at 5002, machine `false` at 5000. -/
def exTwinCounter (b : Bool) : Nat := if b then 5002 else 5000

def exTwinDisk (b : Bool) : World := exDisk (some (beBytes 16 (exTwinCounter b))) []

def exTwinRuns : List (SharedSend Bool) :=
  [exTwin true (.v4 1), exTwin false (.v4 2), exTwin false (.v4 3), exTwin false (.v4 4), exTwin false (.v4 5), exTwin true (.v4 6), exTwin true (.v4 7), exTwin false (.v4 8)]

theorem exTwin_limits : NotLimited (deliver toyAead exServer exEmpty (sharedSends toyAead exHash (fun _ => "/c".toList) exTwinDisk exTwinRuns)).2.2 := by
  unfold NotLimited
  decide +kernel

/-- **C98, the documentation.** README.md:465-468 says that whichever client sent last is the one the server follows and that it rejects all future packets of the other. Neither is so: here the machines
`true` and `false` send in the order `true`, four times `false`, twice `true`, `false`. The first request of `true` is served; three of `false` are refused, although `false` sends last each time; the
fourth one is served, although `false` was lagging; then `true` is refused once and served again. Only the counters decide. -/
theorem C98_last_sender_does_not_decide :
    exTwinRuns.map SharedSend.who = [true, false, false, false, false, true, true, false] ∧ (∀ b, counterOnDisk (exTwinDisk b) "/c/counter".toList = some (exTwinCounter b)) ∧
    (∀ t ∈ exTwinRuns, SharedOk exServer [.v6 0xffff0a000002] exSenderKey t (exTwinCounter t.who + total t.who exTwinRuns)) ∧
    (requestsOf exHash exTwinCounter exTwinRuns).map (fun r => (r.who, r.counter)) =
      [(true, 5003), (false, 5001), (false, 5002), (false, 5003), (false, 5004), (true, 5004), (true, 5005), (false, 5005)] ∧
    (handed (deliver toyAead exServer exEmpty (sharedSends toyAead exHash (fun _ => "/c".toList) exTwinDisk exTwinRuns)).2.1.log).map Prod.fst = [5003, 5004, 5005] := by
  have hc : ∀ b, counterOnDisk (exTwinDisk b) "/c/counter".toList = some (exTwinCounter b) := by decide +kernel
  have hok : ∀ t ∈ exTwinRuns, SharedOk exServer [.v6 0xffff0a000002] exSenderKey t (exTwinCounter t.who + total t.who exTwinRuns) := by
    intro t ht
    have hb : ∀ b, exTwinCounter b + total b exTwinRuns ≤ 3600000001000 := by decide +kernel
    simp only [exTwinRuns, List.mem_cons, List.not_mem_nil, or_false] at ht
    rcases ht with rfl | rfl | rfl | rfl | rfl | rfl | rfl | rfl <;> exact exTwin_ok _ _ _ (hb _)
  refine ⟨rfl, hc, hok, by decide +kernel, ?_⟩
  rw [C98_shared_key toyAead toyAead_correct exHash exServer exServer_wf (by decide +kernel) exEmpty [.v6 0xffff0a000002] rfl exSenderKey (by decide +kernel) 4000 (by decide +kernel)
    (fun _ => "/c".toList) exTwinDisk exTwinCounter hc exTwinRuns hok (by decide +kernel) exTwin_limits]
  decide +kernel

/-- Machine `true`, reseeded far above the other, leads: all its requests are kept. -/
example : (records SharedRequest.counter 4000 (requestsOf exHash (setAt exTwinCounter true 9000) exTwinRuns)).map (fun r => (r.who, r.counter)) = [(true, 9001), (true, 9002), (true, 9003)] := by
  decide +kernel

end Ruroco
