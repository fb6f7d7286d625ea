import Verif.Lemmas.Always
import Verif.Lemmas.Start
import Verif.Model.ClientHistory
import Verif.Spec.Client

/-! Lemmas about the client. -/

namespace Ruroco

open Spec (wire counterOnDisk IsPacket PowerLoss Survives)

/-! ## Counter -/

theorem Counter.write_spec (c : Counter) (w : World) :
    wp c.write w (fun o w' => WroteAtomic c.path (beBytes 16 c.count.toNat) none o w w') := writeAtomicWithMode_spec _ _ _ _

/-- Same files; the trace grew by reads of `p`. -/
structure ReadOnly (p : Path) (w w' : World) : Prop where
  fs : w'.fs = w.fs
  pend : w'.pend = w.pend
  log : ∃ l, w'.log = w.log ++ l ∧ ∀ e ∈ l, e = .file .read p

/-- Result of reading the counter file. -/
def ReadResult (w : World) (p : Path) : Out U128 → Prop
  | .ok c => counterOnDisk w p = some c.toNat
  | .err .notFound => w.fs p = none
  | .err .parse => ∃ f, w.fs p = some f ∧ f.data.length < 16
  | .err _ => True
  | .crash => True

theorem Counter.read_spec (p : Path) (w : World) : wp (Counter.read p) w (fun o w' => ReadOnly p w w' ∧ ReadResult w p o) := by
  unfold Counter.read readFile
  rw [wp_bind, wp_bind]
  have hro : ∀ o, ReadOnly p w { w with log := w.log ++ [.file .read p], oracle := o } := fun o =>
    ⟨rfl, rfl, [.file .read p], rfl, by simp⟩
  apply wp_atomicCall <;> intro o
  · simp only [id]
    rw [wp_bind, wp_peek]
    simp only
    cases hf : w.fs p with
    | none =>
      simp only [wp_throw]
      exact ⟨hro o, hf⟩
    | some f =>
      simp only [wp_pure]
      split
      · rename_i h16
        exact ⟨hro o, f, hf, h16⟩
      · rename_i h16
        refine ⟨hro o, ?_⟩
        show counterOnDisk w p = some (BitVec.ofNat 128 (ofBE (f.data.take 16))).toNat
        unfold counterOnDisk
        simp only [hf]
        rw [if_pos (by omega)]
        have hl : (f.data.take 16).length = 16 := by rw [List.length_take]; omega
        have := ofBE_lt (f.data.take 16)
        rw [hl] at this
        simp only [BitVec.toNat_ofNat]
        rw [Nat.mod_eq_of_lt (by omega)]
  · exact ⟨hro o, trivial⟩
  · exact ⟨hro o, trivial⟩
  · exact ⟨hro o, trivial⟩

/-- Outcomes of `create_and_init`. -/
inductive Init (p : Path) (initial : U128) (w : World) : Out Counter → World → Prop
  | found (c : U128) (w' : World) (hro : ReadOnly p w w') (hd : counterOnDisk w p = some c.toNat) : Init p initial w (.ok ⟨p, c⟩) w'
  | seeded (w1 w' : World) (hro : ReadOnly p w w1) (habs : w.fs p = none)
      (h : WroteAtomic p (beBytes 16 initial.toNat) none (.ok ()) w1 w') : Init p initial w (.ok ⟨p, initial⟩) w'
  | seedFailed (e : Err) (w1 w' : World) (hro : ReadOnly p w w1) (habs : w.fs p = none)
      (h : WroteAtomic p (beBytes 16 initial.toNat) none (.err e) w1 w') : Init p initial w (.err e) w'
  | seedCrashed (w1 w' : World) (hro : ReadOnly p w w1) (habs : w.fs p = none)
      (h : WroteAtomic p (beBytes 16 initial.toNat) none .crash w1 w') : Init p initial w .crash w'
  | refused (e : Err) (w' : World) (hro : ReadOnly p w w') (he : e ≠ .notFound) : Init p initial w (.err e) w'
  | crashed (w' : World) (hro : ReadOnly p w w') : Init p initial w .crash w'

theorem Counter.createAndInit_spec (p : Path) (initial : U128) (w : World) : wp (Counter.createAndInit p initial) w (Init p initial w) := by
  unfold Counter.createAndInit
  rw [wp_bind, wp_attempt]
  refine wp_mono (Counter.read_spec p w) ?_
  rintro o w1 ⟨hro, hres⟩
  cases o with
  | crash => exact .crashed w1 hro
  | ok c => exact .found c w1 hro hres
  | err e =>
    simp only
    split
    · rename_i heq
      cases heq
    · rename_i heq
      cases heq
      rw [wp_bind]
      refine wp_mono (Counter.write_spec ⟨p, initial⟩ w1) ?_
      intro o w2 h
      cases o with
      | ok _ => exact .seeded w1 w2 hro hres h
      | err e => exact .seedFailed e w1 w2 hro hres h
      | crash => exact .seedCrashed w1 w2 hro hres h
    · rename_i e' hne heq
      cases heq
      exact .refused _ w1 hro (fun h => hne (by rw [h]))

/-- The sender after taking a fresh counter. -/
def Sender.bump (s : Sender) : Sender := { s with counter := { s.counter with count := s.counter.count + 1 } }

/-- Room for another counter. -/
def Sender.Room (s : Sender) : Prop := s.counter.count.toNat + 1 < 2 ^ 128

theorem bump_count (s : Sender) (h : s.Room) : s.bump.counter.count.toNat = s.counter.count.toNat + 1 := by
  unfold Sender.Room at h
  simp only [Sender.bump, BitVec.toNat_add]
  rw [Nat.mod_eq_of_lt]
  · rfl
  · simpa using h

/-- What happens on the network during one attempt: sockets, and possibly one datagram. -/
structure NetEvents (addr : SockAddr) (c : U128) (bytes : List Byte) (sent : Bool) (l : List Event) : Prop where
  shape : ∃ n, l = List.replicate n .udpSocket ++ (if sent then [.udp addr.ip addr.port c bytes] else [])

/-- One attempt to reach a destination. -/
inductive Attempt (A : Aead) (hash : List Char → U64) (s : Sender) (addr : SockAddr) (rnd : Option (List Byte)) (w : World) :
    Out (Sender × Except Err Unit) → World → Prop
  | overflow (hroom : ¬ s.Room) (w' : World) (hfs : w'.fs = w.fs) (hpend : w'.pend = w.pend) (hlog : w'.log = w.log ++ [.sendTo addr.ip addr.port]) :
      Attempt A hash s addr rnd w (.ok (s, .error .overflow)) w'
  | writeFailed (hroom : s.Room) (e : Err) (w' : World)
      (h : WroteAtomic s.counter.path (beBytes 16 s.bump.counter.count.toNat) none (.err e) { w with log := w.log ++ [.sendTo addr.ip addr.port] } w') :
      Attempt A hash s addr rnd w (.ok (s.bump, .error e)) w'
  | writeCrashed (hroom : s.Room) (w' : World)
      (h : WroteAtomic s.counter.path (beBytes 16 s.bump.counter.count.toNat) none .crash { w with log := w.log ++ [.sendTo addr.ip addr.port] } w') :
      Attempt A hash s addr rnd w .crash w'
  | encryptFailed (hroom : s.Room) (e : Err) (w' : World) (henc : encode A s.handler rnd (s.bump.request hash addr.ip).serialize = .error e)
      (h : WroteAtomic s.counter.path (beBytes 16 s.bump.counter.count.toNat) none (.ok ()) { w with log := w.log ++ [.sendTo addr.ip addr.port] } w') :
      Attempt A hash s addr rnd w (.ok (s.bump, .error e)) w'
  | net (hroom : s.Room) (bytes : List Byte) (w1 w' : World) (henc : encode A s.handler rnd (s.bump.request hash addr.ip).serialize = .ok bytes)
      (h : WroteAtomic s.counter.path (beBytes 16 s.bump.counter.count.toNat) none (.ok ()) { w with log := w.log ++ [.sendTo addr.ip addr.port] } w1)
      (hfs : w'.fs = w1.fs) (hpend : w'.pend = w1.pend) (sent : Bool) (l : List Event) (hl : NetEvents addr s.bump.counter.count bytes sent l)
      (hlog : w'.log = w1.log ++ l) (o : Out (Sender × Except Err Unit))
      (ho : o = .crash ∨ (o = .ok (s.bump, .error .io)) ∨ (o = .ok (s.bump, .ok ()) ∧ sent = true)) : Attempt A hash s addr rnd w o w'

theorem sendUdp_spec (addr : SockAddr) (c : U128) (bytes : List Byte) (w : World) :
    wp (sendUdp addr c bytes) w (fun o w' => w'.fs = w.fs ∧ w'.pend = w.pend ∧ ∃ sent l, NetEvents addr c bytes sent l ∧ w'.log = w.log ++ l ∧
      (o = .crash ∨ o = .err .io ∨ (o = .ok () ∧ sent = true))) := by
  unfold sendUdp
  rw [wp_bind]
  apply wp_atomicCall <;> intro o1
  · simp only [id]
    rw [wp_bind]
    apply wp_atomicCall <;> intro o2
    · simp only [id]
      apply wp_atomicCall <;> intro o3
      · exact ⟨rfl, rfl, true, [.udpSocket, .udpSocket, .udp addr.ip addr.port c bytes], ⟨2, rfl⟩, by simp, Or.inr (Or.inr ⟨rfl, rfl⟩)⟩
      · exact ⟨rfl, rfl, true, [.udpSocket, .udpSocket, .udp addr.ip addr.port c bytes], ⟨2, rfl⟩, by simp, Or.inr (Or.inl rfl)⟩
      · exact ⟨rfl, rfl, true, [.udpSocket, .udpSocket, .udp addr.ip addr.port c bytes], ⟨2, rfl⟩, by simp, Or.inl rfl⟩
      · exact ⟨rfl, rfl, true, [.udpSocket, .udpSocket, .udp addr.ip addr.port c bytes], ⟨2, rfl⟩, by simp, Or.inl rfl⟩
    · exact ⟨rfl, rfl, false, [.udpSocket, .udpSocket], ⟨2, rfl⟩, by simp, Or.inr (Or.inl rfl)⟩
    · exact ⟨rfl, rfl, false, [.udpSocket, .udpSocket], ⟨2, rfl⟩, by simp, Or.inl rfl⟩
    · exact ⟨rfl, rfl, false, [.udpSocket, .udpSocket], ⟨2, rfl⟩, by simp, Or.inl rfl⟩
  · exact ⟨rfl, rfl, false, [.udpSocket], ⟨1, rfl⟩, by simp, Or.inr (Or.inl rfl)⟩
  · exact ⟨rfl, rfl, false, [.udpSocket], ⟨1, rfl⟩, by simp, Or.inl rfl⟩
  · exact ⟨rfl, rfl, false, [.udpSocket], ⟨1, rfl⟩, by simp, Or.inl rfl⟩

theorem sendData_spec (A : Aead) (hash : List Char → U64) (s : Sender) (addr : SockAddr) (rnd : Option (List Byte)) (w : World) :
    wp (s.sendData A hash addr rnd) w (Attempt A hash s addr rnd w) := by
  unfold Sender.sendData
  rw [wp_bind, wp_note]
  simp only
  rw [wp_bind]
  unfold Counter.inc
  by_cases hroom : s.counter.count.toNat + 1 < 2 ^ 128
  · rw [if_pos hroom]
    simp only
    rw [wp_bind, wp_attempt]
    refine wp_mono (Counter.write_spec _ _) ?_
    intro o w1 h
    cases o with
    | crash => exact .writeCrashed hroom w1 h
    | err e => exact .writeFailed hroom e w1 h
    | ok _ =>
      simp only [wp_pure]
      change wp (match encode A s.handler rnd (s.bump.request hash addr.ip).serialize with
        | .error e => pure (s.bump, .error e)
        | .ok bytes => do
          let r ← (sendUdp addr s.bump.counter.count bytes).attempt
          pure (s.bump, r)) w1 _
      cases henc : encode A s.handler rnd (s.bump.request hash addr.ip).serialize with
      | error e => exact .encryptFailed hroom e w1 henc h
      | ok bytes =>
        simp only
        rw [wp_bind, wp_attempt]
        refine wp_mono (sendUdp_spec addr s.bump.counter.count bytes w1) ?_
        rintro o w2 ⟨h1, h2, sent, l, hl, hlog, ho⟩
        rcases ho with rfl | rfl | ⟨rfl, hs⟩
        · exact .net hroom bytes w1 w2 henc h h1 h2 sent l hl hlog _ (Or.inl rfl)
        · exact .net hroom bytes w1 w2 henc h h1 h2 sent l hl hlog _ (Or.inr (Or.inl rfl))
        · exact .net hroom bytes w1 w2 henc h h1 h2 sent l hl hlog _ (Or.inr (Or.inr ⟨rfl, hs⟩))
  · rw [if_neg hroom]
    exact .overflow hroom _ rfl rfl rfl

end Ruroco
