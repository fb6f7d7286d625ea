import Verif.Lemmas.Always
import Verif.Spec.Effects

/-! Actions confined to some files and some events. -/

namespace Ruroco

open Spec

theorem within_pre (F : Path → Prop) (E : Event → Prop) : Pre (Within F E) where
  refl w := ⟨⟨[], by simp, nofun⟩, fun _ _ => rfl⟩
  trans := by
    rintro a b c ⟨⟨l, h1, h2⟩, h5⟩ ⟨⟨l', h3, h4⟩, h6⟩
    refine ⟨⟨l ++ l', by rw [h3, h1, List.append_assoc], fun e he => ?_⟩, fun q hq => by rw [h6 q hq, h5 q hq]⟩
    rcases List.mem_append.1 he with he | he
    · exact h2 e he
    · exact h4 e he

theorem Spec.Within.mono {F F' : Path → Prop} {E E' : Event → Prop} {w w' : World} (h : Within F E w w') (hF : ∀ q, F q → F' q) (hE : ∀ e, E e → E' e) : Within F' E' w w' := by
  obtain ⟨⟨l, h1, h2⟩, h3⟩ := h
  exact ⟨⟨l, h1, fun e he => hE e (h2 e he)⟩, fun q hq => h3 q (fun hf => hq (hF q hf))⟩

section

variable {F : Path → Prop} {E : Event → Prop}

theorem within_note {ev : Event} (h : E ev) : Always (Within F E) (note ev) := Always.note (fun w => ⟨⟨[ev], rfl, by simpa using h⟩, fun _ _ => rfl⟩)

theorem within_nowNanos : Always (Within F E) nowNanos := Always.nowNanos (fun w c => ⟨⟨[], by simp, nofun⟩, fun _ _ => rfl⟩)

theorem within_call {ev : Event} {eff : World → World} (hE : E ev) (hl : ∀ w, (eff w).log = w.log) (hf : ∀ w q, ¬ F q → (eff w).fs q = w.fs q) : Always (Within F E) (atomicCall ev eff) :=
  Always.atomicCall (fun w o => ⟨⟨[ev], rfl, by simpa using hE⟩, fun _ _ => rfl⟩) (fun w o => ⟨⟨[ev], by rw [hl], by simpa using hE⟩, fun q hq => hf _ q hq⟩)

theorem within_look {ev : Event} (hE : E ev) : Always (Within F E) (atomicCall ev id) := within_call hE (fun _ => rfl) (fun _ _ _ => rfl)

theorem append_other (w : World) (p : Path) (bs : List Byte) : (∀ q, q ≠ p → (w.append p bs).fs q = w.fs q) ∧ (w.append p bs).log = w.log := by
  unfold World.append
  split
  · exact ⟨fun q hq => by simp [World.setFile, hq], rfl⟩
  · exact ⟨fun _ _ => rfl, rfl⟩

theorem within_writeAll {p : Path} {bs : List Byte} (hp : F p) (hE : E (.file .write p)) : Always (Within F E) (writeAll p bs) := by
  have main : ∀ (w : World) (bs : List Byte) (o : List Choice), Within F E w (World.append { w with log := w.log ++ [Event.file .write p], oracle := o } p bs) := by
    intro w bs o
    obtain ⟨h1, h2⟩ := append_other { w with log := w.log ++ [Event.file .write p], oracle := o } p bs
    refine ⟨⟨[.file .write p], h2, by simpa using hE⟩, fun q hq => h1 q ?_⟩
    rintro rfl
    exact hq hp
  intro w
  unfold writeAll syscall
  simp only
  rcases h : w.oracle with _ | ⟨c, o⟩
  · exact main w bs []
  · cases c with
    | ok => exact main w bs o
    | err k => exact main w (bs.take k) o
    | crash k => exact main w (bs.take k) o

theorem ne_of_not {p q : Path} (hp : F p) (hq : ¬ F q) : q ≠ p := by
  rintro rfl
  exact hq hp

theorem within_openTrunc {p : Path} (hp : F p) (hE : E (.file .openTrunc p)) : Always (Within F E) (openTrunc p) :=
  within_call hE (fun _ => rfl) (fun w q hq => by simp [World.setEntry, ne_of_not hp hq])

theorem within_openCreate {p : Path} (hp : F p) (hE : E (.file .openTrunc p)) : Always (Within F E) (openCreate p) := by
  refine within_call hE (fun w => ?_) (fun w q hq => ?_)
  · split <;> rfl
  · split
    · rfl
    · simp [World.setEntry, ne_of_not hp hq]

theorem within_fsync {p : Path} (hp : F p) (hE : E (.file .fsync p)) : Always (Within F E) (fsync p) := by
  refine within_call hE (fun w => ?_) (fun w q hq => ?_)
  · split <;> rfl
  · split
    · simp [World.setFile, ne_of_not hp hq]
    · rfl

theorem within_readFile {p : Path} (hE : E (.file .read p)) : Always (Within F E) (readFile p) := by
  unfold readFile
  refine Always.bind (within_pre F E) (within_look hE) (fun _ => Always.bind (within_pre F E) (Always.peek (within_pre F E) p) ?_)
  intro f
  cases f with
  | none => exact Always.throw (within_pre F E) _
  | some f => exact Always.pure (within_pre F E) _

theorem within_rename {a b : Path} (ha : F a) (hb : F b) (hE : E (.file .rename b)) : Always (Within F E) (rename a b) := by
  unfold rename
  refine Always.bind (within_pre F E) (Always.peek (within_pre F E) a) (fun f => ?_)
  cases f with
  | none => exact Always.throw (within_pre F E) _
  | some f => exact within_call hE (fun _ => rfl) (fun w q hq => by simp [World.setEntry, ne_of_not ha hq, ne_of_not hb hq])

theorem within_fsyncDir {p : Path} (hE : E (.file .fsyncDir p)) (hE' : E (.dirSyncFailed p)) : Always (Within F E) (fsyncDir p) := by
  unfold fsyncDir
  split
  · exact within_note hE'
  · refine Always.bind (within_pre F E) (Always.attempt (within_call hE (fun _ => rfl) (fun _ _ _ => rfl))) (fun r => ?_)
    cases r with
    | ok _ => exact Always.pure (within_pre F E) _
    | error _ => exact within_note hE'

theorem within_removeIgnoring {p : Path} (hp : F p) (h1 : E (.file .remove p)) (h2 : E (.removeFailed p)) : Always (Within F E) (removeIgnoring p) := by
  unfold removeIgnoring removeFile
  refine Always.bind (within_pre F E) (Always.attempt (Always.bind (within_pre F E) (Always.peek (within_pre F E) p) ?_)) ?_
  · intro f
    cases f with
    | none => exact Always.throw (within_pre F E) _
    | some f => exact within_call h1 (fun _ => rfl) (fun w q hq => by simp [World.setEntry, ne_of_not hp hq])
  · intro r
    split
    · exact Always.pure (within_pre F E) _
    · exact Always.pure (within_pre F E) _
    · exact within_note h2

end

/-- Whenever the action succeeds, its result satisfies `K`. -/
def Gives (K : α → Prop) (m : Act α) : Prop := ∀ w, wp m w (fun o _ => ∀ a, o = .ok a → K a)

theorem Gives.pure {K : α → Prop} {a : α} (h : K a) : Gives K (pure a) := by
  intro w x hx
  cases hx
  exact h

theorem Gives.throw {K : α → Prop} {e : Err} : Gives K (Act.throw e) := by
  intro w x hx
  cases hx

theorem Gives.bind_of {K : α → Prop} {K' : β → Prop} {m : Act α} {f : α → Act β} (hm : Gives K m) (hf : ∀ a, K a → Gives K' (f a)) : Gives K' (m >>= f) := by
  intro w
  rw [wp_bind]
  refine wp_mono (hm w) ?_
  intro o w' h
  cases o with
  | ok a => exact hf a (h a rfl) w'
  | err e => intro x hx; cases hx
  | crash => intro x hx; cases hx

theorem Gives.bind {K : β → Prop} {m : Act α} {f : α → Act β} (hf : ∀ a, Gives K (f a)) : Gives K (m >>= f) :=
  Gives.bind_of (K := fun _ => True) (fun _ _ _ => trivial) (fun a _ => hf a)

theorem gives_ofExcept {x : Except Err α} : Gives (fun a => x = .ok a) (Act.ofExcept x) := by
  cases x with
  | ok a => exact Gives.pure rfl
  | error e => exact Gives.throw

/-- `Always.bind` for a result about which something is known. -/
theorem always_bind_of {R : World → World → Prop} (hR : Pre R) {m : Act α} {f : α → Act β} {K : α → Prop} (hm : Always R m) (hk : Gives K m)
    (hf : ∀ a, K a → Always R (f a)) : Always R (m >>= f) := by
  intro w
  show R w (Act.bind m f w).2
  unfold Act.bind
  have h1 := hm w
  have h2 := hk w
  unfold wp at h2
  rcases h : m w with ⟨o, w'⟩
  rw [h] at h1 h2
  cases o with
  | ok a => exact hR.trans h1 (hf a (h2 a rfl) w')
  | err e => exact h1
  | crash => exact h1

/-! ## The client -/

section

variable {F : Path → Prop} {D : Ip → Nat → Prop}

local notation "R" => Within F (ClientMay F D)

theorem within_writeAtomic {p : Path} {bs : List Byte} (hp : F p) (ht : ∀ t : U128, F (tmpPath p t)) : Always R (writeAtomic p bs) := by
  have hR := within_pre F (ClientMay F D)
  unfold writeAtomic writeAtomicWithMode
  refine Always.bind hR within_nowNanos (fun t => ?_)
  refine Always.bind hR (within_openTrunc (ht t) (.file _ _ (ht t))) (fun _ => ?_)
  refine Always.bind hR (within_writeAll (ht t) (.file _ _ (ht t))) (fun _ => ?_)
  refine Always.bind hR (within_fsync (ht t) (.file _ _ (ht t))) (fun _ => ?_)
  refine Always.bind hR (within_rename (ht t) hp (.file _ _ hp)) (fun _ => ?_)
  exact within_fsyncDir (.file _ _ hp) (.dirSyncFailed _ hp)

theorem within_acquireLock {p : Path} {held : Bool} (hp : F p) : Always R (acquireLock p held) := by
  have hR := within_pre F (ClientMay F D)
  unfold acquireLock
  refine Always.bind hR (within_openCreate hp (.file _ _ hp)) (fun _ => ?_)
  refine Always.bind hR (within_look (.file _ _ hp)) (fun _ => ?_)
  split
  · exact Always.throw hR _
  · exact Always.pure hR _

theorem within_createAndInit {p : Path} {i : U128} (hp : F p) (ht : ∀ t : U128, F (tmpPath p t)) : Always R (Counter.createAndInit p i) := by
  have hR := within_pre F (ClientMay F D)
  unfold Counter.createAndInit Counter.read
  refine Always.bind hR (Always.attempt (Always.bind hR (within_readFile (.file _ _ hp)) (fun data => ?_))) (fun r => ?_)
  · split
    · exact Always.throw hR _
    · exact Always.pure hR _
  · split
    · exact Always.pure hR _
    · exact Always.bind hR (within_writeAtomic hp ht) (fun _ => Always.pure hR _)
    · exact Always.throw hR _

/-- The sender works on this counter file. -/
theorem within_create {dir : Path} {cmd : SendCmd} {env : SendEnv} (hp : F (counterPath dir)) (ht : ∀ t : U128, F (tmpPath (counterPath dir) t)) : Always R (Sender.create dir cmd env) := by
  have hR := within_pre F (ClientMay F D)
  unfold Sender.create
  refine Always.bind hR (Always.ofExcept hR _) (fun _ => ?_)
  refine Always.bind hR (Always.ofExcept hR _) (fun _ => ?_)
  split
  · exact Always.throw hR _
  · refine Always.bind hR (Always.ofExcept hR _) (fun _ => ?_)
    refine Always.bind hR within_nowNanos (fun _ => ?_)
    exact Always.bind hR (within_createAndInit hp ht) (fun _ => Always.pure hR _)

theorem within_inc {c : Counter} (hp : F c.path) (ht : ∀ t : U128, F (tmpPath c.path t)) : Always R c.inc := by
  have hR := within_pre F (ClientMay F D)
  unfold Counter.inc
  split
  · exact Always.bind hR (Always.attempt (within_writeAtomic (p := c.path) hp ht)) (fun _ => Always.pure hR _)
  · exact Always.pure hR _

theorem gives_inc {c : Counter} : Gives (fun x => x.1.path = c.path) c.inc := by
  unfold Counter.inc
  split
  · exact Gives.bind (fun _ => Gives.pure rfl)
  · exact Gives.pure rfl

theorem within_sendUdp {a : SockAddr} {c : U128} {bs : List Byte} (ha : D a.ip a.port) : Always R (sendUdp a c bs) := by
  have hR := within_pre F (ClientMay F D)
  unfold sendUdp
  refine Always.bind hR (within_look .udpSocket) (fun _ => ?_)
  refine Always.bind hR (within_look .udpSocket) (fun _ => ?_)
  exact within_look (.udp _ _ _ _ ha)

theorem gives_sendData {A : Aead} {hash : List Char → U64} {s : Sender} {a : SockAddr} {rnd : Option (List Byte)} : Gives (fun x => x.1.counter.path = s.counter.path) (s.sendData A hash a rnd) := by
  unfold Sender.sendData
  refine Gives.bind (fun _ => ?_)
  refine Gives.bind_of gives_inc (fun x hx => ?_)
  obtain ⟨c, r⟩ := x
  simp only at hx ⊢
  cases r with
  | error e => exact Gives.pure hx
  | ok _ =>
    simp only
    split
    · exact Gives.pure hx
    · exact Gives.bind (fun _ => Gives.pure hx)

theorem within_sendData {A : Aead} {hash : List Char → U64} {s : Sender} {a : SockAddr} {rnd : Option (List Byte)} (hp : F s.counter.path) (ht : ∀ t : U128, F (tmpPath s.counter.path t))
    (ha : D a.ip a.port) : Always R (s.sendData A hash a rnd) := by
  have hR := within_pre F (ClientMay F D)
  unfold Sender.sendData
  refine Always.bind hR (within_note (.sendTo _ _ ha)) (fun _ => ?_)
  refine Always.bind hR (within_inc hp ht) (fun x => ?_)
  obtain ⟨c, r⟩ := x
  simp only
  cases r with
  | error e => exact Always.pure hR _
  | ok _ =>
    simp only
    split
    · exact Always.pure hR _
    · exact Always.bind hR (Always.attempt (within_sendUdp ha)) (fun _ => Always.pure hR _)

theorem within_sendLoop {A : Aead} {hash : List Char → U64} {rnd : Nat → Option (List Byte)} {dsts : List SockAddr} {s : Sender} {i : Nat} (hp : F s.counter.path)
    (ht : ∀ t : U128, F (tmpPath s.counter.path t)) (hd : ∀ a ∈ dsts, D a.ip a.port) : Always R (s.sendLoop A hash rnd i dsts) := by
  have hR := within_pre F (ClientMay F D)
  induction dsts generalizing s i with
  | nil => exact Always.pure hR _
  | cons a rest ih =>
    unfold Sender.sendLoop
    refine Always.bind hR ?_ (fun _ => ?_)
    · unfold Sender.pause
      split
      · exact within_note (.sleep _)
      · exact Always.pure hR _
    refine always_bind_of hR (within_sendData hp ht (hd a (by simp))) gives_sendData (fun x hx => ?_)
    obtain ⟨s', r⟩ := x
    simp only at hx ⊢
    have ih' := fun i => ih (s := s') (i := i) (by rw [hx]; exact hp) (by rw [hx]; exact ht) (fun a ha => hd a (by simp [ha]))
    cases r with
    | error e =>
      refine Always.bind hR (within_note (.sendFailed _ _ (hd a (by simp)))) (fun _ => ?_)
      exact Always.bind hR (ih' _) (fun x => Always.pure hR _)
    | ok _ => exact ih' _

theorem destinations_resolved {v4 v6 : Bool} {all : Option (List SockAddr)} {l : List SockAddr} (h : getDestinationIps v4 v6 all = .ok l) : ∃ xs, all = some xs ∧ ∀ a ∈ l, a ∈ xs := by
  unfold getDestinationIps at h
  cases all with
  | none => cases h
  | some xs =>
    refine ⟨xs, rfl, ?_⟩
    have first : ∀ {p : SockAddr → Bool} {a : SockAddr}, (xs.filter p).head? = some a → a ∈ xs := by
      intro p a ha
      exact (List.mem_filter.mp (List.mem_of_head? ha)).1
    simp only at h
    intro a ha
    split at h
    · split at h <;> cases h <;> simp only [List.mem_cons, List.not_mem_nil, or_false] at ha
      · rcases ha with rfl | rfl
        · exact first (by assumption)
        · exact first (by assumption)
      · subst ha; exact first (by assumption)
      · subst ha; exact first (by assumption)
    · split at h
      · split at h <;> cases h
        simp only [List.mem_singleton] at ha
        subst ha; exact first (by assumption)
      · split at h <;> cases h
        simp only [List.mem_singleton] at ha
        subst ha; exact first (by assumption)

theorem gives_createAndInit {p : Path} {i : U128} : Gives (fun c : Counter => c.path = p) (Counter.createAndInit p i) := by
  unfold Counter.createAndInit
  refine Gives.bind (fun r => ?_)
  split
  · exact Gives.pure rfl
  · exact Gives.bind (fun _ => Gives.pure rfl)
  · exact Gives.throw

/-- What `Sender.create` returns. -/
theorem gives_create {dir : Path} {cmd : SendCmd} {env : SendEnv} :
    Gives (fun s : Sender => s.counter.path = counterPath dir ∧ ensurePort cmd.address DEFAULT_PORT = .ok s.cmd.address ∧ s.cmd.ipv4 = cmd.ipv4 ∧ s.cmd.ipv6 = cmd.ipv6) (Sender.create dir cmd env) := by
  unfold Sender.create
  refine Gives.bind_of gives_ofExcept (fun full hfull => ?_)
  refine Gives.bind (fun _ => ?_)
  split
  · exact Gives.throw
  · refine Gives.bind (fun _ => Gives.bind (fun _ => ?_))
    exact Gives.bind_of gives_createAndInit (fun c hc => Gives.pure ⟨hc, hfull, rfl, rfl⟩)

end

end Ruroco
