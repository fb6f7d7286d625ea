import Verif.Props.Installation
import Verif.Spec.ManyServers

/-!
# C119: several servers that have keys in common
-/

namespace Ruroco

open Spec (Seals forwards message SameHost Machine NoCommonHost)

/-- A datagram seals at most one request. -/
theorem Seals.det {A : Aead} {key dg : List Byte} {d d' : ClientData} (h : Seals A key dg d) (h' : Seals A key dg d') : d = d' := by
  obtain ⟨p, p1, _, p3⟩ := h
  obtain ⟨q, q1, _, q3⟩ := h'
  rw [p1] at q1; cases q1
  rw [p3] at q3; cases q3; rfl

/-- What is behind a datagram that was executed on machine `m`. -/
theorem Machine.executed_sealed {A : Aead} {m : Machine} {K : List Byte → Option (List Byte)} (ho : m.Operated A) (hK : m.KeysFrom K) {x : List Byte × U128 × List Byte}
    (hx : x ∈ forwards m.final.w.log) : ∃ key d ip, K (x.1.take 8) = some key ∧ Seals A key x.1 d ∧ x.2.1 = d.counter ∧ ip ∈ m.listed ∧ SameHost d.dstIp ip := by
  obtain ⟨pre, env, dg, src, rd, t, post, cfg, kd, d, n, hev, ⟨pre', env', senv', mid, hpre, hdir, _⟩, hl, rfl⟩ := (run_traced ho.run rfl ho.fresh).2 x hx
  have hmem : Ev.start env' cfg senv' ∈ m.evs := by rw [hev, hpre]; simp
  obtain ⟨k, hk, hid, hseal⟩ := hl.key
  have hips := hl.dst
  rw [ho.ips _ _ _ hmem, loadIps, List.mem_map] at hips
  obtain ⟨ip, hip, he⟩ := hips
  have ht : (dg.take 94).take 8 = dg.take 8 := by simp [List.take_take]
  refine ⟨k.key, d, ip, ?_, (seals_take _ _ _ _).2 hseal, rfl, hip, ?_⟩
  · show K ((dg.take 94).take 8) = _
    rw [ht, ← hid]
    exact hK _ _ _ hmem k (hdir ▸ hk)
  · obtain ⟨pt, _, _, hdd⟩ := hseal
    rw [← normalizeIp_eq_iff_sameHost, he, (deserialize_normal hdd).1]

/-- **C119a.** Any number of machines with keys in common, no two of which list an address of the same host. However their histories go — failing calls, crashes, restarts, power losses, and an
adversary who delivers any datagram to any of them, as often as they like — every datagram is executed at most once in total: by at most one of the servers, and by that one at most once. -/
theorem C119_executed_by_one_server (A : Aead) (K : List Byte → Option (List Byte)) (machines : List Machine) (hop : ∀ m ∈ machines, m.Operated A) (hK : ∀ m ∈ machines, m.KeysFrom K)
    (hsep : machines.Pairwise (fun m m' => NoCommonHost m.listed m'.listed)) : (machines.flatMap Machine.executed).Nodup := by
  rw [List.flatMap, List.Nodup, List.pairwise_flatten]
  constructor
  · intro l hl
    rw [List.mem_map] at hl
    obtain ⟨m, hm, rfl⟩ := hl
    have hinc := C07_counters_strictly_increase A m.dir m.world m.evs m.final (hop m hm).run (hop m hm).fresh (hop m hm).stat (hop m hm).sync
    rw [Machine.executed, List.pairwise_map]
    refine List.Pairwise.imp_of_mem ?_ hinc
    intro a b ha hb hab heq
    have hlt := hab (by rw [heq])
    obtain ⟨key, d, _, k1, s1, c1, _⟩ := Machine.executed_sealed (hop m hm) (hK m hm) ha
    obtain ⟨key', d', _, k2, s2, c2, _⟩ := Machine.executed_sealed (hop m hm) (hK m hm) hb
    rw [heq, k2] at k1; cases k1
    rw [heq] at s1
    rw [c1, c2, Seals.det s1 s2] at hlt
    exact Nat.lt_irrefl _ hlt
  · rw [List.pairwise_map]
    refine List.Pairwise.imp_of_mem ?_ hsep
    intro m m' hm hm' hno y hy y' hy' heq
    rw [Machine.executed, List.mem_map] at hy hy'
    obtain ⟨a, ha, rfl⟩ := hy
    obtain ⟨b, hb, rfl⟩ := hy'
    obtain ⟨key, d, ip, k1, s1, _, i1, e1⟩ := Machine.executed_sealed (hop m hm) (hK m hm) ha
    obtain ⟨key', d', ip', k2, s2, _, i2, e2⟩ := Machine.executed_sealed (hop m' hm') (hK m' hm') hb
    rw [heq, k2] at k1; cases k1
    rw [heq] at s1
    have := Seals.det s1 s2
    subst this
    refine hno ip i1 ip' i2 ?_
    rw [← normalizeIp_eq_iff_sameHost] at *
    exact e1.symm.trans e2

/-- **C119b.** Of two machines that have keys in common, only those can both execute a datagram that list the host it is addressed to. -/
theorem C119_both_list_the_destination (A : Aead) (K : List Byte → Option (List Byte)) (m m' : Machine) (h : m.Operated A) (h' : m'.Operated A) (hK : m.KeysFrom K) (hK' : m'.KeysFrom K)
    (dg : List Byte) (hx : dg ∈ m.executed) (hx' : dg ∈ m'.executed) :
    ∃ key d a b, K (dg.take 8) = some key ∧ Seals A key dg d ∧ a ∈ m.listed ∧ b ∈ m'.listed ∧ SameHost d.dstIp a ∧ SameHost d.dstIp b := by
  rw [Machine.executed, List.mem_map] at hx hx'
  obtain ⟨a, ha, rfl⟩ := hx
  obtain ⟨b, hb, heq⟩ := hx'
  obtain ⟨key, d, ip, k1, s1, _, i1, e1⟩ := Machine.executed_sealed h hK ha
  obtain ⟨key', d', ip', k2, s2, _, i2, e2⟩ := Machine.executed_sealed h' hK' hb
  rw [heq, k1] at k2; cases k2
  rw [heq] at s2
  have := Seals.det s1 s2
  subst this
  exact ⟨key, d, ip, ip', k1, s1, i1, i2, e1, e2⟩

/-! ## Concrete machines -/

/-- The only key there is. -/
def exTable (id : List Byte) : Option (List Byte) := if id = exKey.id then some exKey.key else none

/-- A machine listing 10.0.0.2 whose server got a request for that address, twice. -/
def exMachineA : Machine :=
  ⟨"/s".toList, exEmpty, [exStart 1000 [], exPacket 5000 1100 [], exPacket 5000 1200 []], [exStart 1000 [], exPacket 5000 1100 [], exPacket 5000 1200 []].foldl (exec toyAead) ⟨exEmpty, none⟩,
    [.v4 0x0a000002]⟩

/-- A start like `exStart` with the address list `ips`. -/
def exStartFor (ips : List Ip) : Ev := .start ⟨[], [some 1000, some 1000, some 1000]⟩ { exServer.cfg with maxPerIp := 10, ips := loadIps ips } ⟨exDir, id, true, 0⟩

/-- A machine listing the addresses `ips`, to which the request sent to machine A is delivered. -/
def exMachineB (ips : List Ip) : Machine :=
  ⟨"/s".toList, exEmpty, [exStartFor ips, exPacket 5000 1100 []], [exStartFor ips, exPacket 5000 1100 []].foldl (exec toyAead) ⟨exEmpty, none⟩, ips⟩

theorem exDir_keys : ∀ k, HasKey exDir k → exTable k.id = some k.key := by
  rintro k ⟨es, he, e, hm, hkf, hk⟩
  simp only [exDir, Option.some.injEq] at he
  subst he
  simp only [List.mem_cons, List.not_mem_nil, or_false] at hm
  rcases hm with rfl | rfl
  · have : Spec.keyOf ⟨"a.key".toList, true, some ('\n' :: exKeyText)⟩ = some exKey := by decide +kernel
    rw [this] at hk
    cases hk
    simp [exTable]
  · have : Spec.keyOf ⟨"readme".toList, true, none⟩ = none := by decide +kernel
    rw [this] at hk
    cases hk

theorem exMachineA_operated : exMachineA.Operated toyAead ∧ exMachineA.KeysFrom exTable := by
  refine ⟨⟨run_exec _ _ ?_, rfl, ?_, by decide +kernel, by simp [exMachineA, exStart, exPacket]⟩, ?_⟩
  · refine ⟨⟨rfl, rfl⟩, ?_, ?_, trivial⟩ <;> first | rfl | decide +kernel
  · intro env cfg senv h
    simp only [exMachineA, exStart, exPacket, List.mem_cons, List.not_mem_nil, or_false, reduceCtorEq, Ev.start.injEq] at h
    obtain ⟨_, rfl, _⟩ := h
    decide
  · intro env cfg senv h
    simp only [exMachineA, exStart, exPacket, List.mem_cons, List.not_mem_nil, or_false, reduceCtorEq, Ev.start.injEq] at h
    obtain ⟨_, _, rfl⟩ := h
    exact exDir_keys

/-- **C119c.** The condition is needed. Two machines have a key in common and both list 10.0.0.2, as machines in two private networks may, or two machines left with the `127.0.0.1` of the
shipped config.toml: the datagram that is executed by the one is executed by the other as well when it is replayed there. -/
theorem C119_executed_by_both :
    ∃ (K : List Byte → Option (List Byte)) (m m' : Machine) (dg : List Byte), m.Operated toyAead ∧ m'.Operated toyAead ∧ m.KeysFrom K ∧ m'.KeysFrom K ∧ m.executed = [dg] ∧ m'.executed = [dg] := by
  refine ⟨exTable, exMachineA, exMachineB [.v4 0x0a000002], exSealed 5000, exMachineA_operated.1, ⟨run_exec _ _ ?_, rfl, ?_, by decide +kernel, by simp [exMachineB, exStartFor, exPacket]⟩,
    exMachineA_operated.2, ?_, by decide +kernel, by decide +kernel⟩
  · refine ⟨⟨rfl, rfl⟩, ?_, trivial⟩
    first | rfl | decide +kernel
  · intro env cfg senv h
    simp only [exMachineB, exStartFor, exPacket, List.mem_cons, List.not_mem_nil, or_false, reduceCtorEq, Ev.start.injEq] at h
    obtain ⟨_, rfl, _⟩ := h
    rfl
  · intro env cfg senv h
    simp only [exMachineB, exStartFor, exPacket, List.mem_cons, List.not_mem_nil, or_false, reduceCtorEq, Ev.start.injEq] at h
    obtain ⟨_, _, rfl⟩ := h
    exact exDir_keys

/-- Machine A and a machine listing 10.0.0.3 and ::1 meet the hypotheses of C119a: the datagram is executed by A, once, and not by the other machine. -/
example : (exMachineA.executed ++ (exMachineB [.v4 0x0a000003, .v6 1]).executed = [exSealed 5000]) ∧ ([exMachineA, exMachineB [.v4 0x0a000003, .v6 1]].flatMap Machine.executed).Nodup := by
  refine ⟨by decide +kernel, C119_executed_by_one_server toyAead exTable _ ?_ ?_ ?_⟩
  · intro m hm
    simp only [List.mem_cons, List.not_mem_nil, or_false] at hm
    rcases hm with rfl | rfl
    · exact exMachineA_operated.1
    · refine ⟨run_exec _ _ ?_, rfl, ?_, by decide +kernel, by simp [exMachineB, exStartFor, exPacket]⟩
      · refine ⟨⟨rfl, rfl⟩, ?_, trivial⟩
        first | rfl | decide +kernel
      · intro env cfg senv h
        simp only [exMachineB, exStartFor, exPacket, List.mem_cons, List.not_mem_nil, or_false, reduceCtorEq, Ev.start.injEq] at h
        obtain ⟨_, rfl, _⟩ := h
        rfl
  · intro m hm
    simp only [List.mem_cons, List.not_mem_nil, or_false] at hm
    rcases hm with rfl | rfl
    · exact exMachineA_operated.2
    · intro env cfg senv h
      simp only [exMachineB, exStartFor, exPacket, List.mem_cons, List.not_mem_nil, or_false, reduceCtorEq, Ev.start.injEq] at h
      obtain ⟨_, _, rfl⟩ := h
      exact exDir_keys
  · refine List.pairwise_pair.2 ?_
    intro a ha b hb
    simp only [exMachineA, exMachineB, List.mem_cons, List.not_mem_nil, or_false] at ha hb
    subst ha
    rcases hb with rfl | rfl <;> simp [SameHost, Spec.IsMappedOf]

end Ruroco
