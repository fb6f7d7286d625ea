import Verif.Model.AtOnce
import Verif.Props.ClientHistory

/-!
# C113: clients at the same time behave like clients one after the other
-/

namespace Ruroco.AtOnce

open Ruroco.Spec Ruroco.Spec.AtOnce

/-! ## Cutting functions into steps -/

def Prog.bind {α β : Type} : Prog α → (α → Prog β) → Prog β
  | .ret (.ok x), f => f x
  | .ret (.error e), _ => .ret (.error e)
  | .call a b m k, f => .call a b m (fun r => (k r).bind f)

def Prog.attempt {α : Type} : Prog α → Prog (Except Err α)
  | .ret r => .ret (.ok r)
  | .call a b m k => .call a b m (fun r => (k r).attempt)

theorem eval_ok {α β : Type} {a b : Nat} {m : Act β} {k : Except Err β → Prog α} {w w' : World} {x : β} (h : m w = (.ok x, w')) : (Prog.call a b m k).eval w = (k (.ok x)).eval w' := by
  simp only [Prog.eval, h]

theorem eval_err {α β : Type} {a b : Nat} {m : Act β} {k : Except Err β → Prog α} {w w' : World} {e : Err} (h : m w = (.err e, w')) : (Prog.call a b m k).eval w = (k (.error e)).eval w' := by
  simp only [Prog.eval, h]

theorem eval_crash {α β : Type} {a b : Nat} {m : Act β} {k : Except Err β → Prog α} {w w' : World} (h : m w = (.crash, w')) : (Prog.call a b m k).eval w = (.crash, w') := by
  simp only [Prog.eval, h]

theorem eval_bind {α β : Type} (p : Prog α) (f : α → Prog β) : ∀ w, (p.bind f).eval w = Act.bind p.eval (fun x => (f x).eval) w := by
  induction p with
  | ret r =>
    intro w
    cases r <;> rfl
  | call a b m k ih =>
    intro w
    rw [Prog.bind]
    rcases h : m w with ⟨o, w'⟩
    unfold Act.bind
    cases o with
    | ok x => rw [eval_ok h, eval_ok h]; exact ih _ w'
    | err e => rw [eval_err h, eval_err h]; exact ih _ w'
    | crash => rw [eval_crash h, eval_crash h]

theorem eval_attempt {α : Type} (p : Prog α) : ∀ w, p.attempt.eval w = Act.attempt p.eval w := by
  induction p with
  | ret r =>
    intro w
    cases r <;> rfl
  | call a b m k ih =>
    intro w
    rw [Prog.attempt]
    rcases h : m w with ⟨o, w'⟩
    unfold Act.attempt
    cases o with
    | ok x => rw [eval_ok h, eval_ok h]; exact ih _ w'
    | err e => rw [eval_err h, eval_err h]; exact ih _ w'
    | crash => rw [eval_crash h, eval_crash h]

theorem stepwise_bind {dir : Path} {α β : Type} {p : Prog α} {f : α → Prog β} (hp : Stepwise dir p) (hf : ∀ x, Stepwise dir (f x)) : Stepwise dir (p.bind f) := by
  induction hp with
  | ret r =>
    cases r with
    | ok x => exact hf x
    | error e => exact .ret _
  | call h hk ih => exact .call h ih

theorem stepwise_attempt {dir : Path} {α : Type} {p : Prog α} (hp : Stepwise dir p) : Stepwise dir p.attempt := by
  induction hp with
  | ret r => exact .ret _
  | call h hk ih => exact .call h ih

/-- `m` can be cut into single steps. -/
def Fine (dir : Path) {α : Type} (m : Act α) : Prop := ∃ p : Prog α, (∀ w, p.eval w = m w) ∧ Stepwise dir p

theorem fine_pure {dir : Path} {α : Type} (x : α) : Fine dir (pure x : Act α) := ⟨.ret (.ok x), fun _ => rfl, .ret _⟩
theorem fine_throw {dir : Path} {α : Type} (e : Err) : Fine dir (Act.throw e : Act α) := ⟨.ret (.error e), fun _ => rfl, .ret _⟩
theorem fine_ofExcept {dir : Path} {α : Type} (r : Except Err α) : Fine dir (Act.ofExcept r) := ⟨.ret r, fun _ => rfl, .ret _⟩

theorem fine_bind {dir : Path} {α β : Type} {m : Act α} {f : α → Act β} (hm : Fine dir m) (hf : ∀ x, Fine dir (f x)) : Fine dir (m >>= f) := by
  obtain ⟨p, e, hp⟩ := hm
  refine ⟨p.bind (fun x => Classical.choose (hf x)), fun w => ?_, stepwise_bind hp fun x => (Classical.choose_spec (hf x)).2⟩
  rw [eval_bind]
  show Act.bind p.eval _ w = Act.bind m f w
  rw [show p.eval = m from funext e, show (fun x => (Classical.choose (hf x)).eval) = f from funext fun x => funext (Classical.choose_spec (hf x)).1]

theorem fine_attempt {dir : Path} {α : Type} {m : Act α} (hm : Fine dir m) : Fine dir m.attempt := by
  obtain ⟨p, e, hp⟩ := hm
  refine ⟨p.attempt, fun w => ?_, stepwise_attempt hp⟩
  rw [eval_attempt, show p.eval = m from funext e]

theorem fine_single {dir : Path} {α : Type} {a b : Nat} {m : Act α} (h : Single dir a b m) : Fine dir m := by
  refine ⟨.call a b m .ret, fun w => ?_, .call h fun r => .ret r⟩
  rcases h : m w with ⟨o, w'⟩
  cases o with
  | ok x => rw [eval_ok h]; rfl
  | err e => rw [eval_err h]; rfl
  | crash => rw [eval_crash h]

/-! ## Looking alike -/

theorem _root_.Ruroco.Spec.AtOnce.Alike.refl {dir : Path} (w : World) : Alike dir w w := ⟨fun _ _ => ⟨rfl, rfl⟩, rfl, rfl⟩

theorem _root_.Ruroco.Spec.AtOnce.Alike.given {dir : Path} {w u : World} (h : Alike dir w u) (o o' : List Choice) (t t' : List (Option U128)) : Alike dir (w.given o t) (u.given o' t') := ⟨h.files, h.mask, h.log⟩

theorem _root_.Ruroco.Spec.AtOnce.Alike.logged {dir : Path} {w u : World} (h : Alike dir w u) (ev : Event) : Alike dir { w with log := w.log ++ [ev] } { u with log := u.log ++ [ev] } :=
  ⟨h.files, h.mask, by
    show seen dir (w.log ++ [ev]) = seen dir (u.log ++ [ev])
    unfold seen
    rw [List.filter_append, List.filter_append]
    have := h.log
    unfold seen at this
    rw [this]⟩

/-- An effect on files of our own. -/
structure Nice (dir : Path) (eff : World → World) : Prop where
  given : ∀ (w : World) o t, eff (w.given o t) = (eff w).given o t
  own : ∀ w u, Alike dir w u → Alike dir (eff w) (eff u)
  log : ∀ w, (eff w).log = w.log

theorem nice_id {dir : Path} : Nice dir id := ⟨fun _ _ _ => rfl, fun _ _ h => h, fun _ => rfl⟩

theorem nice_ite {dir : Path} {c : Prop} [Decidable c] {f g : World → World} (hf : Nice dir f) (hg : Nice dir g) : Nice dir (fun w => if c then f w else g w) := by
  by_cases h : c
  · simp only [if_pos h]; exact hf
  · simp only [if_neg h]; exact hg

theorem syscall_given {ev : Event} {eff : World → World} {onErr onCrash : Nat → World → World} (w : World) (c : Choice) (o : List Choice) (t : List (Option U128)) :
    syscall ev eff onErr onCrash (w.given (c :: o) t) =
      match c with
      | .ok => (.ok (), eff (World.given { w with log := w.log ++ [ev] } o t))
      | .err k => (.err .io, onErr k (World.given { w with log := w.log ++ [ev] } o t))
      | .crash k => (.crash, onCrash k (World.given { w with log := w.log ++ [ev] } o t)) := by
  cases c <;> rfl

theorem single_syscall {dir : Path} {ev : Event} {eff : World → World} {onErr onCrash : Nat → World → World} (h1 : Nice dir eff) (h2 : ∀ k, Nice dir (onErr k)) (h3 : ∀ k, Nice dir (onCrash k)) :
    Single dir 1 0 (syscall ev eff onErr onCrash) := by
  refine ⟨by omega, fun w os ts o t ho ht => ?_, fun w u os ts ha ho ht => ?_, fun w os ts => ?_, fun w os ts => ⟨rfl, rfl⟩⟩
  · match os, ho, ts, ht with
    | [c], _, [], _ =>
      rw [List.singleton_append, List.nil_append, syscall_given, syscall_given]
      cases c with
      | ok => simp only [h1.given]; rfl
      | err k => simp only [(h2 k).given]; rfl
      | crash k => simp only [(h3 k).given]; rfl
  · match os, ho, ts, ht with
    | [c], _, [], _ =>
      rw [syscall_given, syscall_given]
      cases c with
      | ok => exact ⟨rfl, h1.own _ _ ((ha.logged ev).given _ _ _ _)⟩
      | err k => exact ⟨rfl, (h2 k).own _ _ ((ha.logged ev).given _ _ _ _)⟩
      | crash k => exact ⟨rfl, (h3 k).own _ _ ((ha.logged ev).given _ _ _ _)⟩
  · match os with
    | [] => 
      show w.log <+: (eff _).log
      rw [h1.log]
      exact List.prefix_append _ _
    | c :: os =>
      rw [syscall_given]
      cases c with
      | ok => simp only [h1.log]; exact List.prefix_append _ _
      | err k => simp only [(h2 k).log]; exact List.prefix_append _ _
      | crash k => simp only [(h3 k).log]; exact List.prefix_append _ _

theorem single_atomicCall {dir : Path} {ev : Event} {eff : World → World} (h : Nice dir eff) : Single dir 1 0 (atomicCall ev eff) :=
  single_syscall h (fun _ => nice_id) (fun _ => nice_ite nice_id h)

theorem single_note {dir : Path} (ev : Event) : Single dir 0 0 (note ev) :=
  ⟨by omega, fun w os ts o t ho ht => by match os, ho, ts, ht with | [], _, [], _ => rfl, fun w u os ts ha _ _ => ⟨rfl, (ha.logged ev).given _ _ _ _⟩, fun w os ts => List.prefix_append _ _, fun w os ts => ⟨rfl, rfl⟩⟩

theorem single_peek {dir p : Path} (hp : Own dir p) : Single dir 0 0 (peek p) :=
  ⟨by omega, fun w os ts o t ho ht => by match os, ho, ts, ht with | [], _, [], _ => rfl, fun w u os ts ha _ _ => ⟨congrArg Out.ok (ha.files p hp).1, ha.given _ _ _ _⟩, fun w os ts => List.prefix_rfl, fun w os ts => ⟨rfl, rfl⟩⟩

theorem single_nowNanos {dir : Path} : Single dir 0 1 nowNanos := by
  refine ⟨by omega, fun w os ts o t ho ht => ?_, fun w u os ts ha ho ht => ?_, fun w os ts => ?_, fun w os ts => ⟨rfl, rfl⟩⟩
  · match os, ho, ts, ht with
    | [], _, [x], _ => cases x <;> rfl
  · match ts, ht with
    | [x], _ => cases x <;> exact ⟨rfl, ha.given _ _ _ _⟩
  · match ts with
    | [] => exact List.prefix_rfl
    | none :: _ => exact List.prefix_rfl
    | some _ :: _ => exact List.prefix_rfl

/-! ## The client's system calls -/

theorem nice_setFile {dir p : Path} (f : Option File) : Nice dir (fun w => w.setFile p f) :=
  ⟨fun _ _ _ => rfl, fun w u h => ⟨fun q hq => ⟨by show (if q = p then f else w.fs q) = (if q = p then f else u.fs q); rw [(h.files q hq).1], (h.files q hq).2⟩, h.mask, h.log⟩, fun _ => rfl⟩

theorem alike_setEntry {dir p : Path} (hp : Own dir p) {w u : World} (h : Alike dir w u) (f : Option File) : Alike dir (w.setEntry p f) (u.setEntry p f) :=
  ⟨fun q hq => ⟨by show (if q = p then f else w.fs q) = (if q = p then f else u.fs q); rw [(h.files q hq).1], by
    show (if q = p then w.fs p :: w.pend p else w.pend q) = (if q = p then u.fs p :: u.pend p else u.pend q)
    rw [(h.files q hq).2, (h.files p hp).1, (h.files p hp).2]⟩, h.mask, h.log⟩

theorem fine_openTrunc {dir p : Path} (hp : Own dir p) : Fine dir (openTrunc p) := by
  refine fine_single (single_atomicCall ⟨fun _ _ _ => rfl, fun w u h => ?_, fun _ => rfl⟩)
  have e : w.newMode = u.newMode := by unfold World.newMode; rw [h.mask]
  rw [(h.files p hp).1, e]
  exact alike_setEntry hp h _

theorem nice_append {dir p : Path} (hp : Own dir p) (bs : List Byte) : Nice dir (fun w => w.append p bs) := by
  refine ⟨fun w o t => ?_, fun w u h => ?_, fun w => ?_⟩
  · show World.append _ _ _ = _
    unfold World.append
    rw [show (w.given o t).fs p = w.fs p from rfl]
    cases w.fs p <;> rfl
  · show Alike dir (World.append _ _ _) (World.append _ _ _)
    unfold World.append
    rw [(h.files p hp).1]
    cases u.fs p with
    | none => exact h
    | some f => exact (nice_setFile _).own _ _ h
  · show (World.append _ _ _).log = _
    unfold World.append
    cases w.fs p <;> rfl

theorem fine_writeAll {dir p : Path} (hp : Own dir p) (bs : List Byte) : Fine dir (writeAll p bs) := fine_single (single_syscall (nice_append hp _) (fun _ => nice_append hp _) (fun _ => nice_append hp _))

theorem fine_fsync {dir p : Path} (hp : Own dir p) : Fine dir (fsync p) := by
  refine fine_single (single_atomicCall ⟨fun w o t => ?_, fun w u h => ?_, fun w => ?_⟩)
  · show (match w.fs p with | some f => _ | none => _) = _
    cases w.fs p <;> rfl
  · rw [(h.files p hp).1]
    cases u.fs p with
    | none => exact h
    | some f => exact (nice_setFile _).own _ _ h
  · cases w.fs p <;> rfl

theorem fine_rename {dir a b : Path} (ha : Own dir a) (hb : Own dir b) : Fine dir (rename a b) := by
  refine fine_bind (fine_single (single_peek ha)) fun f => ?_
  cases f with
  | none => exact fine_throw _
  | some f => exact fine_single (single_atomicCall ⟨fun _ _ _ => rfl, fun w u h => alike_setEntry ha (alike_setEntry hb h _) _, fun _ => rfl⟩)

theorem fine_fsyncDir {dir : Path} (p : Path) : Fine dir (fsyncDir p) := by
  unfold fsyncDir
  split
  · exact fine_single (single_note _)
  · refine fine_bind (fine_attempt (fine_single (single_atomicCall ⟨fun _ _ _ => rfl, fun w u h => ⟨fun q hq => ⟨(h.files q hq).1, ?_⟩, h.mask, h.log⟩, fun _ => rfl⟩))) fun r => ?_
    · show (if _ then _ else w.pend q) = (if _ then _ else u.pend q)
      rw [(h.files q hq).2]
    · cases r with
      | ok x => exact fine_pure _
      | error e => exact fine_single (single_note _)

theorem fine_readFile {dir p : Path} (hp : Own dir p) : Fine dir (readFile p) := by
  refine fine_bind (fine_single (single_atomicCall nice_id)) fun _ => fine_bind (fine_single (single_peek hp)) fun f => ?_
  cases f with
  | none => exact fine_throw _
  | some f => exact fine_pure _

theorem own_counter (dir : Path) : Own dir (counterPath dir) := List.prefix_rfl

theorem own_tmp (dir : Path) (n : U128) : Own dir (tmpPath (counterPath dir) n) := by
  unfold tmpPath Own
  exact List.prefix_append _ _

theorem fine_writeCounter (dir : Path) (n : U128) : Fine dir (Counter.write ⟨counterPath dir, n⟩) := by
  refine fine_bind (fine_single single_nowNanos) fun t => ?_
  refine fine_bind (fine_openTrunc (own_tmp dir t)) fun _ => fine_bind (fine_writeAll (own_tmp dir t) _) fun _ => fine_bind (fine_fsync (own_tmp dir t)) fun _ => 
    fine_bind (fine_rename (own_tmp dir t) (own_counter dir)) fun _ => fine_fsyncDir _

theorem fine_readCounter (dir : Path) : Fine dir (Counter.read (counterPath dir)) := by
  refine fine_bind (fine_readFile (own_counter dir)) fun d => ?_
  split
  · exact fine_throw _
  · exact fine_pure _

theorem fine_sendUdp (dir : Path) (a : SockAddr) (c : U128) (bytes : List Byte) : Fine dir (sendUdp a c bytes) :=
  fine_bind (fine_single (single_atomicCall nice_id)) fun _ => fine_bind (fine_single (single_atomicCall nice_id)) fun _ => fine_single (single_atomicCall nice_id)

/-- Results with which the program may end are among `P`. -/
inductive Returns {α : Type} (P : α → Prop) : Prog α → Prop
  | ok (x : α) (h : P x) : Returns P (.ret (.ok x))
  | error (e : Err) : Returns P (.ret (.error e))
  | call {a b : Nat} {β : Type} {m : Act β} {k : Except Err β → Prog α} (hk : ∀ r, Returns P (k r)) : Returns P (.call a b m k)

/-- `m` can be cut into single steps, and its results are among `P`. -/
def FineTo (dir : Path) {α : Type} (P : α → Prop) (m : Act α) : Prop := ∃ p : Prog α, (∀ w, p.eval w = m w) ∧ Stepwise dir p ∧ Returns P p

theorem returns_bind {α β : Type} {P : α → Prop} {Q : β → Prop} {p : Prog α} {f : α → Prog β} (hp : Returns P p) (hf : ∀ x, P x → Returns Q (f x)) : Returns Q (p.bind f) := by
  induction hp with
  | ok x h => exact hf x h
  | error e => exact .error e
  | call hk ih => exact .call ih

theorem returns_true {α : Type} (p : Prog α) : Returns (fun _ => True) p := by
  induction p with
  | ret r => cases r with
    | ok x => exact .ok x trivial
    | error e => exact .error e
  | call a b m k ih => exact .call ih

theorem eval_bind_of {α β : Type} {P : α → Prop} {p : Prog α} {f : α → Prog β} {g : α → Act β} (hp : Returns P p) (hf : ∀ x, P x → (f x).eval = g x) : ∀ w, (p.bind f).eval w = Act.bind p.eval g w := by
  induction hp with
  | ok x h =>
    intro w
    show (f x).eval w = g x w
    rw [hf x h]
  | error e => intro w; rfl
  | @call a b γ m k hk ih =>
    intro w
    rw [Prog.bind]
    rcases h : m w with ⟨o, w'⟩
    unfold Act.bind
    cases o with
    | ok x => rw [eval_ok h, eval_ok h]; exact ih _ w'
    | err e => rw [eval_err h, eval_err h]; exact ih _ w'
    | crash => rw [eval_crash h, eval_crash h]

theorem fine_bindTo {dir : Path} {α β : Type} {P : α → Prop} {Q : β → Prop} {m : Act α} {f : α → Act β} (hm : FineTo dir P m) (hf : ∀ x, P x → FineTo dir Q (f x)) : FineTo dir Q (m >>= f) := by
  classical
  obtain ⟨p, e, hp, hr⟩ := hm
  refine ⟨p.bind (fun x => if h : P x then Classical.choose (hf x h) else .ret (.error .io)), fun w => ?_, stepwise_bind hp fun x => ?_, returns_bind hr fun x hx => ?_⟩
  · rw [eval_bind_of (g := f) hr]
    · show Act.bind p.eval _ w = Act.bind m f w
      rw [show p.eval = m from funext e]
    · intro x hx
      rw [dif_pos hx]
      exact funext (Classical.choose_spec (hf x hx)).1
  · by_cases hx : P x
    · rw [dif_pos hx]; exact (Classical.choose_spec (hf x hx)).2.1
    · rw [dif_neg hx]; exact .ret _
  · rw [dif_pos hx]; exact (Classical.choose_spec (hf x hx)).2.2

theorem fineTo_of_fine {dir : Path} {α : Type} {m : Act α} (h : Fine dir m) : FineTo dir (fun _ => True) m := by
  obtain ⟨p, e, hp⟩ := h
  exact ⟨p, e, hp, returns_true p⟩

theorem fine_of_fineTo {dir : Path} {α : Type} {P : α → Prop} {m : Act α} (h : FineTo dir P m) : Fine dir m := by
  obtain ⟨p, e, hp, _⟩ := h
  exact ⟨p, e, hp⟩

theorem fineTo_pure {dir : Path} {α : Type} {P : α → Prop} {x : α} (h : P x) : FineTo dir P (pure x : Act α) := ⟨.ret (.ok x), fun _ => rfl, .ret _, .ok x h⟩

theorem fineTo_throw {dir : Path} {α : Type} {P : α → Prop} (e : Err) : FineTo dir P (Act.throw e : Act α) := ⟨.ret (.error e), fun _ => rfl, .ret _, .error e⟩

theorem fineTo_inc (dir : Path) (c : Counter) (hc : c.path = counterPath dir) : FineTo dir (fun r => r.1.path = counterPath dir) (Counter.inc c) := by
  obtain ⟨p, n⟩ := c
  cases hc
  unfold Counter.inc
  split
  · exact fine_bindTo (fineTo_of_fine (fine_attempt (fine_writeCounter dir _))) fun _ _ => fineTo_pure rfl
  · exact fineTo_pure rfl

theorem fineTo_sendData (A : Aead) (hash : List Char → U64) (dir : Path) (s : Sender) (hs : s.counter.path = counterPath dir) (a : SockAddr) (rnd : Option (List Byte)) :
    FineTo dir (fun r => r.1.counter.path = counterPath dir) (s.sendData A hash a rnd) := by
  refine fine_bindTo (fineTo_of_fine (fine_single (single_note _))) fun _ _ => fine_bindTo (fineTo_inc dir s.counter hs) fun r hr => ?_
  obtain ⟨c, r⟩ := r
  cases r with
  | error e => exact fineTo_pure hr
  | ok u =>
    show FineTo dir _ (match encode A s.handler rnd _ with | .error e => _ | .ok bytes => _)
    split
    · exact fineTo_pure hr
    · exact fine_bindTo (fineTo_of_fine (fine_attempt (fine_sendUdp dir _ _ _))) fun _ _ => fineTo_pure hr

theorem fine_sendLoop (A : Aead) (hash : List Char → U64) (dir : Path) (rnd : Nat → Option (List Byte)) (dsts : List SockAddr) :
    ∀ (s : Sender) (_ : s.counter.path = counterPath dir) (i : Nat), Fine dir (s.sendLoop A hash rnd i dsts) := by
  induction dsts with
  | nil => exact fun s hs i => fine_pure _
  | cons a rest ih =>
    intro s hs i
    rw [Sender.sendLoop]
    refine fine_of_fineTo (P := fun _ => True) ?_
    refine fine_bindTo (fineTo_of_fine ?_) fun _ _ => fine_bindTo (fineTo_sendData A hash dir s hs a (rnd i)) fun r hr => ?_
    · unfold Sender.pause
      split
      · exact fine_single (single_note _)
      · exact fine_pure _
    · obtain ⟨s', r⟩ := r
      cases r with
      | error e => exact fine_bindTo (fineTo_of_fine (fine_single (single_note _))) fun _ _ => fine_bindTo (fineTo_of_fine (ih s' hr _)) fun r _ => fineTo_of_fine (fine_pure _)
      | ok u => exact fineTo_of_fine (ih s' hr _)

theorem fineTo_createAndInit (dir : Path) (n : U128) : FineTo dir (fun c => c.path = counterPath dir) (Counter.createAndInit (counterPath dir) n) := by
  refine fine_bindTo (fineTo_of_fine (fine_attempt (fine_readCounter dir))) fun r _ => ?_
  split
  · exact fineTo_pure rfl
  · exact fine_bindTo (fineTo_of_fine (fine_writeCounter dir n)) fun _ _ => fineTo_pure rfl
  · exact fineTo_throw _

theorem fineTo_createSender (dir : Path) (cmd : SendCmd) (env : SendEnv) : FineTo dir (fun s => s.counter.path = counterPath dir) (Sender.create dir cmd env) := by
  refine fine_bindTo (fineTo_of_fine (fine_ofExcept _)) fun _ _ => fine_bindTo (fineTo_of_fine (fine_ofExcept _)) fun _ _ => ?_
  cases env.keyText with
  | none => exact fineTo_throw _
  | some key =>
    exact fine_bindTo (fineTo_of_fine (fine_ofExcept _)) fun _ _ => fine_bindTo (fineTo_of_fine (fine_single single_nowNanos)) fun _ _ =>
      fine_bindTo (fineTo_createAndInit dir _) fun c hc => fineTo_pure hc

theorem fine_body (A : Aead) (hash : List Char → U64) (dir : Path) (job : Job) : Fine dir (job.body A hash dir) := by
  cases job with
  | send cmd senv =>
    refine fine_of_fineTo (fine_bindTo (Q := fun _ => True) (fineTo_createSender dir cmd senv) fun s hs => fineTo_of_fine ?_)
    refine fine_bind (fine_ofExcept _) fun dsts => fine_bind (fine_sendLoop A hash dir _ _ s hs 0) fun r => ?_
    obtain ⟨s', n⟩ := r
    show Fine dir (if _ then _ else _)
    split
    · exact fine_throw _
    · exact fine_pure _
  | reseed => exact fine_bind (fine_single single_nowNanos) fun n => fine_writeCounter dir n

/-- The client can be cut into single steps. -/
theorem C113_cut (A : Aead) (hash : List Char → U64) (dir : Path) : ∃ code, IsCode A hash dir code :=
  ⟨fun job => Classical.choose (fine_body A hash dir job), fun job => Classical.choose_spec (fine_body A hash dir job)⟩

/-! ## One after the other -/

theorem _root_.Ruroco.Spec.AtOnce.Alike.trans {dir : Path} {w u v : World} (h : Alike dir w u) (g : Alike dir u v) : Alike dir w v :=
  ⟨fun q hq => ⟨(h.files q hq).1.trans (g.files q hq).1, (h.files q hq).2.trans (g.files q hq).2⟩, h.mask.trans g.mask, h.log.trans g.log⟩

theorem _root_.Ruroco.Spec.AtOnce.Alike.symm {dir : Path} {w u : World} (h : Alike dir w u) : Alike dir u w :=
  ⟨fun q hq => ⟨(h.files q hq).1.symm, (h.files q hq).2.symm⟩, h.mask.symm, h.log.symm⟩

theorem lock_not_own (dir : Path) : ¬ Own dir (lockPath dir) := by
  unfold Own lockPath counterPath
  rw [List.prefix_append_right_inj]
  decide

theorem seen_lock (dir : Path) (log : List Event) : seen dir (log ++ [.file .lock (lockPath dir)]) = seen dir log := by
  unfold seen
  rw [List.filter_append]
  simp

theorem seen_open (dir : Path) (log : List Event) : seen dir (log ++ [.file .openTrunc (lockPath dir)]) = seen dir log := by
  unfold seen
  rw [List.filter_append]
  simp

theorem alike_locked (dir : Path) (w : World) : Alike dir { w with log := w.log ++ [.file .lock (lockPath dir)] } w := ⟨fun _ _ => ⟨rfl, rfl⟩, rfl, seen_lock dir w.log⟩

/-- Opening the lock file as far as the file system is concerned. -/
def lockFile (dir : Path) (w : World) : World :=
  match w.fs (lockPath dir) with
  | some _ => w
  | none => w.setEntry (lockPath dir) (some ⟨[], w.newMode, false, .creator⟩)

theorem alike_lockFile (dir : Path) (w : World) : Alike dir (lockFile dir w) w := by
  unfold lockFile
  cases w.fs (lockPath dir) with
  | some f => exact .refl w
  | none =>
    refine ⟨fun q hq => ?_, rfl, rfl⟩
    have hne : q ≠ lockPath dir := fun e => lock_not_own dir (e ▸ hq)
    exact ⟨if_neg hne, if_neg hne⟩

theorem alike_opened (dir : Path) (w : World) (c : Choice) (o : Out Unit) (w' : World) (h : openCreate (lockPath dir) (w.given [c] []) = (o, w')) : Alike dir w' w := by
  have a : Alike dir { w with log := w.log ++ [.file .openTrunc (lockPath dir)] } w := ⟨fun _ _ => ⟨rfl, rfl⟩, rfl, seen_open dir w.log⟩
  have b := (alike_lockFile dir (World.given { w with log := w.log ++ [.file .openTrunc (lockPath dir)] } [] [])).trans (Alike.given a [] w.oracle [] w.clock)
  have g := Alike.given a [] w.oracle [] w.clock
  have hw : w.given w.oracle w.clock = w := rfl
  rw [hw] at b g
  unfold openCreate atomicCall at h
  rw [syscall_given] at h
  cases c with
  | ok => cases h; exact b
  | err k => cases h; exact g
  | crash k =>
    cases h
    show Alike dir (if k = 0 then _ else _) w
    split
    · exact g
    · exact b

/-- The whole of a run of the command line client for this job, /repo/src/client/mod.rs:22-45. -/
def runJob (A : Aead) (hash : List Char → U64) (dir : Path) (job : Job) : Act Unit := do
  acquireLock (lockPath dir) false
  job.body A hash dir

/-- The event of a history in which the job is done. -/
def event (job : Job) (env : Env) : CEv :=
  match job with
  | .send cmd senv => .send env false cmd senv
  | .reseed => .reseed env false

theorem did_event (job : Job) (env : Env) : did (event job env) = some (.job job) := by cases job <;> rfl

theorem cstep_job {A : Aead} {hash : List Char → U64} {dir : Path} {w w' : World} {job : Job} {env : Env} {o : Out Unit} (h : runJob A hash dir job (w.withEnv env []) = (o, w')) :
    CStep A hash dir w (event job env) w' := by
  cases job with
  | send cmd senv => exact .send w env false cmd senv o w' h
  | reseed => exact .reseed w env false o w' h

/-- The machine of `w` when the lock has been taken. -/
def lockedWorld (dir : Path) (w : World) : World :=
  let v := lockFile dir { w with log := w.log ++ [.file .openTrunc (lockPath dir)], cur := [] }
  { v with log := v.log ++ [.file .lock (lockPath dir)] }

theorem alike_lockedWorld (dir : Path) (w : World) : Alike dir (lockedWorld dir w) w := by
  have a : Alike dir { w with log := w.log ++ [.file .openTrunc (lockPath dir)], cur := [] } w := ⟨fun _ _ => ⟨rfl, rfl⟩, rfl, seen_open dir w.log⟩
  exact (alike_locked dir _).trans ((alike_lockFile dir _).trans a)

theorem runJob_given (A : Aead) (hash : List Char → U64) (dir : Path) (job : Job) (w : World) (o : List Choice) (t : List (Option U128)) :
    runJob A hash dir job (w.withEnv ⟨.ok :: .ok :: o, t⟩ []) = job.body A hash dir ((lockedWorld dir w).given o t) := by
  have h : acquireLock (lockPath dir) false (w.withEnv ⟨.ok :: .ok :: o, t⟩ []) = (.ok (), (lockedWorld dir w).given o t) := by
    unfold lockedWorld lockFile
    cases hf : w.fs (lockPath dir) with
    | none =>
      show acquireLock (lockPath dir) false (World.given { w with cur := [] } _ _) = _
      simp only [acquireLock, openCreate, atomicCall, bind, Act.bind, syscall_given]
      simp only [World.given, hf]
      rfl
    | some f =>
      show acquireLock (lockPath dir) false (World.given { w with cur := [] } _ _) = _
      simp only [acquireLock, openCreate, atomicCall, bind, Act.bind, syscall_given]
      simp only [World.given, hf]
      rfl
  show Act.bind (acquireLock (lockPath dir) false) (fun _ => job.body A hash dir) _ = _
  unfold Act.bind
  rw [h]

/-- What is known about the machine without interleaving. `holds x l v`: after `l` it may be in world `v` (`x` is anything else that matters). `asked`: the jobs considered; `reads job v t`: the readings of the clock
considered while `job`, begun in world `v`, is done. -/
structure Turn (dir : Path) (σ : Type) where
  holds : σ → List Did → World → Prop
  asked : Job → Prop
  reads : Job → World → U128 → Prop

/-- After a history, a job or a power loss can follow. -/
structure Turn.Goes {dir : Path} {σ : Type} (T : Turn dir σ) (A : Aead) (hash : List Char → U64) : Prop where
  job : ∀ x l v job env o u, T.holds x l v → T.asked job → (∀ t, some t ∈ env.clock → T.reads job v t) → runJob A hash dir job (v.withEnv env []) = (o, u) → T.holds x (l ++ [.job job]) u
  power : ∀ x l v v', T.holds x l v → Spec.PowerLoss v v' → T.holds x (l ++ [.power]) v'

/-- A step that is considered. -/
structure Turn.Allows {dir : Path} {σ : Type} (T : Turn dir σ) (s : Machine) (a : Move) : Prop where
  asked : ∀ p job, a = .begins p job → T.asked job
  reads : ∀ p os ts, a = .works p os ts → ∀ l job v t, s.did = l ++ [.job job] → (∀ e ∈ seen dir v.log, e ∈ s.w.log) → some t ∈ ts → T.reads job v t

/-- Process `p` is in the middle of a job, with `rest` to do: the job, begun in a world `v` of a history with one thing after the other, would now have the same to do on the same machine; and wherever it may end, the history can be
continued to there. -/
structure Halfway {dir : Path} {σ : Type} (T : Turn dir σ) (A : Aead) (hash : List Char → U64) (x : σ) (s : Machine) (rest : Prog Unit) : Prop where
  stepwise : Stepwise dir rest
  goes : ∃ l v job os ts u, s.did = l ++ [.job job] ∧ Alike dir s.w u ∧ (∀ t, some t ∈ ts → T.reads job v t) ∧ (∀ e ∈ seen dir v.log, e ∈ s.w.log) ∧
    (∀ o t, runJob A hash dir job (v.withEnv ⟨.ok :: .ok :: (os ++ o), ts ++ t⟩ []) = rest.eval (u.given o t)) ∧
    ∀ env o u, (∀ t, some t ∈ env.clock → T.reads job v t) → runJob A hash dir job (v.withEnv env []) = (o, u) → (∀ e ∈ seen dir s.w.log, e ∈ u.log) → T.holds x s.did u

/-- The machine is as if everything done so far had been done one after the other. -/
def InTurn {dir : Path} {σ : Type} (T : Turn dir σ) (x : σ) (s : Machine) : Prop := ∃ v, T.holds x s.did v ∧ Alike dir s.w v

structure MInv {dir : Path} {σ : Type} (T : Turn dir σ) (A : Aead) (hash : List Char → U64) (x : σ) (s : Machine) : Prop where
  holder : ∀ p, (s.proc p = .idle ∨ (s.proc p).works) ↔ s.holder = some p
  quiet : (∀ p, ¬ (s.proc p).works) → InTurn T x s
  busy : ∀ p rest, s.proc p = .busy rest → Halfway T A hash x s rest

theorem seen_mem {dir : Path} {log : List Event} {e : Event} (h : e ∈ seen dir log) : e ∈ log := (List.mem_filter.1 h).1

theorem seen_seen {dir : Path} {log : List Event} {e : Event} (h : e ∈ seen dir log) : ∀ log', e ∈ log' → e ∈ seen dir log' := fun _ h' => List.mem_filter.2 ⟨h', (List.mem_filter.1 h).2⟩

theorem InTurn.alike {dir : Path} {σ : Type} {T : Turn dir σ} {x : σ} {s s' : Machine} (h : InTurn T x s) (hd : s'.did = s.did) (ha : Alike dir s'.w s.w) : InTurn T x s' := by
  obtain ⟨v, hr, hal⟩ := h
  exact ⟨v, hd ▸ hr, ha.trans hal⟩

theorem Halfway.alike {dir : Path} {σ : Type} {T : Turn dir σ} {A : Aead} {hash : List Char → U64} {x : σ} {s s' : Machine} {rest : Prog Unit} (h : Halfway T A hash x s rest) (hd : s'.did = s.did) (ha : Alike dir s'.w s.w) :
    Halfway T A hash x s' rest := by
  obtain ⟨hst, l, v, job, os, ts, u, hdid, hal, hts, hlog, hgo, hend⟩ := h
  refine ⟨hst, l, v, job, os, ts, u, hd.trans hdid, ha.trans hal, hts, fun e he => ?_, hgo, fun env o u' h1 h2 h3 => ?_⟩
  · have := seen_seen he _ (hlog e he)
    rw [← ha.log] at this
    exact seen_mem this
  · rw [hd]
    exact hend env o u' h1 h2 (by rw [← ha.log]; exact h3)

theorem survives_self (f : Option File) : Survives f f := by
  cases f with
  | none => exact .absent
  | some f =>
    cases h : f.synced with
    | true => exact .synced f h
    | false => exact .unsynced f f h

theorem works_busy {c : Proc} (h : c.works) : ∃ rest, c = .busy rest := by
  cases c with
  | busy rest => exact ⟨rest, rfl⟩
  | _ => exact h.elim

/-- Nobody works if process `p`, the holder of the lock, does not. -/
theorem MInv.still {dir : Path} {σ : Type} {T : Turn dir σ} {A : Aead} {hash : List Char → U64} {x : σ} {s : Machine} (h : MInv T A hash x s) {p : Nat} (hp : s.holder = some p) (hn : ¬ (s.proc p).works) : ∀ q, ¬ (s.proc q).works := by
  intro q hq
  have := (h.holder q).1 (.inr hq)
  rw [hp] at this
  cases this
  exact hn hq

/-- Nothing changes in what the holder of the lock does. -/
theorem MInv.aside {dir : Path} {σ : Type} {T : Turn dir σ} {A : Aead} {hash : List Char → U64} {x : σ} {s s' : Machine} (h : MInv T A hash x s) (hd : s'.did = s.did) (ha : Alike dir s'.w s.w)
    (hh : ∀ p, (s'.proc p = .idle ∨ (s'.proc p).works) ↔ s'.holder = some p) (hb : ∀ p rest, s'.proc p = .busy rest → s.proc p = .busy rest) (hq : (∀ p, ¬ (s'.proc p).works) → ∀ p, ¬ (s.proc p).works) : MInv T A hash x s' :=
  ⟨hh, fun hn => (h.quiet (hq hn)).alike hd ha, fun p rest hp => (h.busy p rest (hb p rest hp)).alike hd ha⟩

theorem minv_step {dir : Path} {σ : Type} {T : Turn dir σ} {A : Aead} {hash : List Char → U64} (hT : T.Goes A hash) {code : Job → Prog Unit} (hcode : IsCode A hash dir code) {x : σ} {s s' : Machine} {a : Move}
    (h : MInv T A hash x s) (hall : T.Allows s a) (hs : MStep dir code s a s') : MInv T A hash x s' := by
  -- a process that does not hold the lock
  have out : ∀ p, s.proc p = .absent ∨ s.proc p = .opened → s.holder ≠ some p := fun p hp e => by
    rcases (h.holder p).2 e with g | g <;> rcases hp with hp | hp <;> rw [hp] at g <;> first | cases g | exact g.elim
  -- its state is changed to another one without the lock
  have move : ∀ p c (w' : World), s.proc p = .absent ∨ s.proc p = .opened → c = .absent ∨ c = .opened → Alike dir w' s.w → MInv T A hash x { s.setProc p c with w := w' } := by
    intro p c w' hp hc ha
    refine h.aside rfl ha (fun q => ?_) (fun q rest hq => ?_) fun hn q hq => ?_
    · show ((if q = p then c else s.proc q) = .idle ∨ (if q = p then c else s.proc q).works) ↔ s.holder = some q
      by_cases e : q = p
      · subst e
        rw [if_pos rfl]
        refine ⟨fun g => ?_, fun g => absurd g (out q hp)⟩
        rcases hc with hc | hc <;> rw [hc] at g <;> rcases g with g | g <;> first | cases g | exact g.elim
      · rw [if_neg e]; exact h.holder q
    · by_cases e : q = p
      · subst e
        have hq' : (if q = q then c else s.proc q) = .busy rest := hq
        rw [if_pos rfl] at hq'
        rcases hc with hc | hc <;> rw [hc] at hq' <;> cases hq'
      · have hq' : (if q = p then c else s.proc q) = .busy rest := hq
        rwa [if_neg e] at hq'
    · by_cases e : q = p
      · subst e
        rcases hp with hp | hp <;> rw [hp] at hq <;> exact hq
      · refine hn q ?_
        show (if q = p then c else s.proc q).works
        rwa [if_neg e]
  cases hs with
  | opens p c hp o w' ho =>
    refine move p _ w' (.inl hp) ?_ (alike_opened dir s.w c o w' ho)
    split
    · exact .inr rfl
    · exact .inl rfl
  | granted p hp hh =>
    refine h.aside rfl (alike_locked dir s.w) (fun q => ?_) (fun q rest hq => ?_) fun hn q hq => ?_
    · show ((if q = p then Proc.idle else s.proc q) = .idle ∨ (if q = p then Proc.idle else s.proc q).works) ↔ some p = some q
      by_cases e : q = p
      · rw [if_pos e, e]; simp
      · rw [if_neg e, h.holder q, hh]
        exact ⟨nofun, fun g => absurd (Option.some.inj g).symm e⟩
    · by_cases e : q = p
      · subst e
        have hq' : (if q = q then Proc.idle else s.proc q) = .busy rest := hq
        rw [if_pos rfl] at hq'
        cases hq'
      · have hq' : (if q = p then Proc.idle else s.proc q) = .busy rest := hq
        rwa [if_neg e] at hq'
    · have := (h.holder q).1 (.inr hq)
      rw [hh] at this
      cases this
  | refused p hp =>
    have := move p .absent _ (.inr hp) (.inl rfl) (alike_locked dir s.w)
    have e : (s.exit p).holder = s.holder := if_neg (out p (.inr hp))
    unfold Machine.exit
    rw [if_neg (out p (.inr hp))]
    exact this
  | begins p job hp =>
    have hh : s.holder = some p := (h.holder p).1 (.inl hp)
    have hn : ∀ q, ¬ (s.proc q).works := h.still hh (by rw [hp]; exact id)
    obtain ⟨v, hr, hal⟩ := h.quiet hn
    refine ⟨fun q => ?_, fun g => ?_, fun q rest hq => ?_⟩
    · show ((if q = p then Proc.busy (code job) else s.proc q) = .idle ∨ (if q = p then Proc.busy (code job) else s.proc q).works) ↔ s.holder = some q
      by_cases e : q = p
      · rw [if_pos e, e]; exact ⟨fun _ => hh, fun _ => .inr trivial⟩
      · rw [if_neg e]; exact h.holder q
    · refine absurd ?_ (g p)
      show (if p = p then Proc.busy (code job) else s.proc p).works
      rw [if_pos rfl]
      trivial
    · have hq' : (if q = p then Proc.busy (code job) else s.proc q) = .busy rest := hq
      by_cases e : q = p
      · rw [if_pos e] at hq'
        cases hq'
        refine ⟨(hcode job).2, s.did, v, job, [], [], lockedWorld dir v, rfl, hal.trans (alike_lockedWorld dir v).symm, nofun, fun e he => ?_, fun o t => ?_, fun env o u h1 h2 h3 => ?_⟩
        · rw [← hal.log] at he
          exact seen_mem he
        · rw [(hcode job).1]
          exact runJob_given A hash dir job v o t
        · exact hT.job x s.did v job env o u hr (hall.asked p job rfl) h1 h2
      · rw [if_neg e] at hq'
        exact absurd (show (s.proc q).works by rw [hq']; trivial) (hn q)
  | works p a b β m k hp os ts ho ht =>
    have hh : s.holder = some p := (h.holder p).1 (.inr (by rw [hp]; trivial))
    have hoth : ∀ q, q ≠ p → ¬ (s.proc q).works := fun q e hq => by
      have := (h.holder q).1 (.inr hq)
      rw [hh] at this
      exact e (Option.some.inj this).symm
    obtain ⟨hst, l, v, job, os0, ts0, u, hdid, hal, hts, hlog, hgo, hend⟩ := h.busy p _ hp
    cases hst with
    | call hsing hk =>
      obtain ⟨ho1, ho2⟩ := hsing.own s.w u os ts hal ho ht
      have huse := fun o t => hsing.uses u os ts o t ho ht
      rcases hm : m (s.w.given os ts) with ⟨r, w'⟩
      rcases hmu : m (u.given os ts) with ⟨r', u'⟩
      rw [hm, hmu] at ho1 ho2
      simp only [hmu] at huse
      have e1 : r = r' := ho1
      subst e1
      have hgo' : ∀ o t, runJob A hash dir job (v.withEnv ⟨.ok :: .ok :: ((os0 ++ os) ++ o), (ts0 ++ ts) ++ t⟩ []) = (Prog.call a b m k).eval (u.given (os ++ o) (ts ++ t)) := fun o t => by
        rw [List.append_assoc, List.append_assoc]
        exact hgo (os ++ o) (ts ++ t)
      have hts' : ∀ t, some t ∈ ts0 ++ ts → T.reads job v t := fun t htm => by
        rcases List.mem_append.1 htm with g | g
        · exact hts t g
        · exact hall.reads p os ts rfl l job v t hdid hlog g
      have hgrow : s.w.log <+: w'.log := by
        have := hsing.logs s.w os ts
        rwa [hm] at this
      have next : ∀ k', (∀ o t, (Prog.call a b m k).eval (u.given (os ++ o) (ts ++ t)) = k'.eval (u'.given o t)) → Stepwise dir k' → MInv T A hash x { s.setProc p (.busy k') with w := w' } := by
        intro k' hk' hsk
        refine ⟨fun q => ?_, fun g => ?_, fun q rest hq => ?_⟩
        · show ((if q = p then Proc.busy k' else s.proc q) = .idle ∨ (if q = p then Proc.busy k' else s.proc q).works) ↔ s.holder = some q
          by_cases e : q = p
          · rw [if_pos e, e]; exact ⟨fun _ => hh, fun _ => .inr trivial⟩
          · rw [if_neg e]; exact h.holder q
        · refine absurd ?_ (g p)
          show (if p = p then Proc.busy k' else s.proc p).works
          rw [if_pos rfl]
          trivial
        · have hq' : (if q = p then Proc.busy k' else s.proc q) = .busy rest := hq
          by_cases e : q = p
          · rw [if_pos e] at hq'
            cases hq'
            refine ⟨hsk, l, v, job, os0 ++ os, ts0 ++ ts, u', hdid, ho2, hts', fun e he => hgrow.subset (hlog e he), fun o t => (hgo' o t).trans (hk' o t), fun env o u h1 h2 h3 => hend env o u h1 h2 fun e he => ?_⟩
            exact h3 e (seen_seen he _ (hgrow.subset (seen_mem he)))
          · rw [if_neg e] at hq'
            exact absurd (show (s.proc q).works by rw [hq']; trivial) (hoth q e)
      cases r with
      | ok x => exact next (k (.ok x)) (fun o t => eval_ok (huse o t)) (hk _)
      | err e => exact next (k (.error e)) (fun o t => eval_err (huse o t)) (hk _)
      | crash =>
        have hfin : InTurn T x { s.exit p with w := w' } := by
          have := hgo' [] []
          rw [eval_crash (huse [] [])] at this
          refine ⟨_, hend _ _ _ (fun t ht => hts' t (by simpa using ht)) this fun e he => ?_, Alike.given ho2 w'.oracle [] w'.clock []⟩
          have h1 := seen_seen he _ (hgrow.subset (seen_mem he))
          rw [ho2.log] at h1
          exact seen_mem h1
        refine ⟨fun q => ?_, fun _ => hfin, fun q rest hq => ?_⟩
        · show ((if q = p then Proc.absent else s.proc q) = .idle ∨ (if q = p then Proc.absent else s.proc q).works) ↔ (if s.holder = some p then none else s.holder) = some q
          rw [if_pos hh]
          by_cases e : q = p
          · rw [if_pos e]
            exact ⟨fun g => by rcases g with g | g; cases g; exact g.elim, nofun⟩
          · rw [if_neg e, h.holder q, hh]
            exact ⟨fun g => absurd (Option.some.inj g).symm e, nofun⟩
        · have hq' : (if q = p then Proc.absent else s.proc q) = .busy rest := hq
          by_cases e : q = p
          · rw [if_pos e] at hq'
            cases hq'
          · rw [if_neg e] at hq'
            exact absurd (show (s.proc q).works by rw [hq']; trivial) (hoth q e)
  | ends p r hp =>
    have hh : s.holder = some p := (h.holder p).1 (.inr (by rw [hp]; trivial))
    obtain ⟨hst, l, v, job, os0, ts0, u, hdid, hal, hts, hlog, hgo, hend⟩ := h.busy p _ hp
    have hfin : InTurn T x (s.setProc p .idle) := by
      have := hgo [] []
      have hu : ∀ e ∈ seen dir s.w.log, e ∈ u.log := fun e he => by
        rw [hal.log] at he
        exact seen_mem he
      cases r with
      | ok x => exact ⟨_, hend _ _ _ (fun t ht => hts t (by simpa using ht)) this hu, Alike.given hal s.w.oracle [] s.w.clock []⟩
      | error e => exact ⟨_, hend _ _ _ (fun t ht => hts t (by simpa using ht)) this hu, Alike.given hal s.w.oracle [] s.w.clock []⟩
    refine ⟨fun q => ?_, fun _ => hfin, fun q rest hq => ?_⟩
    · show ((if q = p then Proc.idle else s.proc q) = .idle ∨ (if q = p then Proc.idle else s.proc q).works) ↔ s.holder = some q
      by_cases e : q = p
      · rw [if_pos e, e]; exact ⟨fun _ => hh, fun _ => .inl rfl⟩
      · rw [if_neg e]; exact h.holder q
    · have hq' : (if q = p then Proc.idle else s.proc q) = .busy rest := hq
      by_cases e : q = p
      · rw [if_pos e] at hq'
        cases hq'
      · rw [if_neg e] at hq'
        have := (h.holder q).1 (.inr (show (s.proc q).works by rw [hq']; trivial))
        rw [hh] at this
        exact absurd (Option.some.inj this).symm e
  | exits p hp =>
    refine h.aside rfl (.refl _) (fun q => ?_) (fun q rest hq => ?_) fun hn q hq => ?_
    · show ((if q = p then Proc.absent else s.proc q) = .idle ∨ (if q = p then Proc.absent else s.proc q).works) ↔ (if s.holder = some p then none else s.holder) = some q
      by_cases e : q = p
      · rw [if_pos e, e]
        refine ⟨fun g => by rcases g with g | g; cases g; exact g.elim, fun g => ?_⟩
        split at g
        · cases g
        · rename_i hne
          exact absurd g hne
      · rw [if_neg e, h.holder q]
        split
        · rename_i he
          rw [he]
          exact ⟨fun g => absurd (Option.some.inj g).symm e, nofun⟩
        · exact Iff.rfl
    · have hq' : (if q = p then Proc.absent else s.proc q) = .busy rest := hq
      by_cases e : q = p
      · rw [if_pos e] at hq'
        cases hq'
      · rwa [if_neg e] at hq'
    · by_cases e : q = p
      · exact hp (e ▸ hq)
      · refine hn q ?_
        show (if q = p then Proc.absent else s.proc q).works
        rwa [if_neg e]
  | power w' hp hpl =>
    refine ⟨fun q => ⟨fun g => ?_, nofun⟩, fun _ => ?_, fun q rest hq => ?_⟩
    · rcases g with g | g
      · cases g
      · exact g.elim
    · classical
      obtain ⟨v, hr, hal⟩ := h.quiet hp
      let v' : World := { v with fs := fun q => if Own dir q then w'.fs q else v.fs q, pend := fun _ => [], umask := w'.umask }
      have hv : Spec.PowerLoss v v' := by
        refine ⟨fun q => ?_, fun _ => rfl, rfl⟩
        by_cases hq : Own dir q
        · obtain ⟨f, hf, hsv⟩ := hpl.entries q
          rw [(hal.files q hq).1, (hal.files q hq).2] at hf
          refine ⟨f, hf, ?_⟩
          show Survives f (if Own dir q then w'.fs q else v.fs q)
          rwa [if_pos hq]
        · refine ⟨v.fs q, List.mem_cons_self, ?_⟩
          show Survives _ (if Own dir q then w'.fs q else v.fs q)
          rw [if_neg hq]
          exact survives_self _
      refine ⟨v', hT.power x s.did v v' hr hv, ⟨fun q hq => ⟨?_, ?_⟩, rfl, ?_⟩⟩
      · show w'.fs q = if Own dir q then w'.fs q else v.fs q
        rw [if_pos hq]
      · exact hpl.nothingPending q
      · show seen dir w'.log = seen dir v.log
        rw [hpl.log]
        exact hal.log
    · cases hq
  | others w' hfs hmask hlog =>
    exact h.aside rfl ⟨hfs, hmask, by rw [show ({ s with w := w' } : Machine).w.log = s.w.log from hlog]⟩ h.holder (fun _ _ g => g) fun hn => hn

theorem minv_start {dir : Path} {σ : Type} (T : Turn dir σ) (A : Aead) (hash : List Char → U64) (x : σ) (w : World) (h : T.holds x [] w) : MInv T A hash x (Machine.start w) :=
  ⟨fun p => ⟨fun g => by rcases g with g | g; cases g; exact g.elim, nofun⟩, fun _ => ⟨w, h, .refl w⟩, fun _ _ g => by cases g⟩

/-- Histories with one event after the other. -/
def turns (A : Aead) (hash : List Char → U64) (dir : Path) (w : World) : Turn dir Unit where
  holds _ l v := ∃ evs, CRun A hash dir w evs v ∧ evs.map did = l.map some
  asked _ := True
  reads _ _ _ := True

theorem turns_goes (A : Aead) (hash : List Char → U64) (dir : Path) (w : World) : (turns A hash dir w).Goes A hash where
  job := by
    rintro _ l v job env o u ⟨evs, hr, hd⟩ _ _ h
    exact ⟨_, .snoc hr (cstep_job h), by rw [List.map_append, List.map_append, hd, List.map_cons, did_event]; rfl⟩
  power := by
    rintro _ l v v' ⟨evs, hr, hd⟩ h
    exact ⟨_, .snoc hr (.power v v' h), by rw [List.map_append, List.map_append, hd]; rfl⟩

theorem minv_run {A : Aead} {hash : List Char → U64} {dir : Path} {code : Job → Prog Unit} (hcode : IsCode A hash dir code) {w : World} {s : Machine} (hr : MRun dir code (Machine.start w) s) :
    MInv (turns A hash dir w) A hash () s := by
  generalize h0 : Machine.start w = s0 at hr
  induction hr with
  | nil => subst h0; exact minv_start _ A hash () w ⟨[], .nil w, rfl⟩
  | snoc _ hstep ih => exact minv_step (turns_goes A hash dir w) hcode ih ⟨fun _ _ _ => trivial, fun _ _ _ _ _ _ _ _ _ _ _ => trivial⟩ hstep

theorem MRun.trans {dir : Path} {code : Job → Prog Unit} {s s' s'' : Machine} (h : MRun dir code s s') (g : MRun dir code s' s'') : MRun dir code s s'' := by
  induction g with
  | nil => exact h
  | snoc _ hs ih => exact .snoc ih hs

theorem MRun.one {dir : Path} {code : Job → Prog Unit} {s s' : Machine} {a : Move} (h : MStep dir code s a s') : MRun dir code s s' := .snoc (.nil s) h

/-- Steps of some kinds only. -/
inductive RunVia (dir : Path) (code : Job → Prog Unit) (P : Machine → Move → Prop) : Machine → Machine → Prop
  | nil (s : Machine) : RunVia dir code P s s
  | snoc {s s' s'' : Machine} {a : Move} : RunVia dir code P s s' → P s' a → MStep dir code s' a s'' → RunVia dir code P s s''

theorem RunVia.trans {dir : Path} {code : Job → Prog Unit} {P : Machine → Move → Prop} {s s' s'' : Machine} (h : RunVia dir code P s s') (g : RunVia dir code P s' s'') : RunVia dir code P s s'' := by
  induction g with
  | nil => exact h
  | snoc _ hp hs ih => exact .snoc ih hp hs

theorem RunVia.run {dir : Path} {code : Job → Prog Unit} {P : Machine → Move → Prop} {s s' : Machine} (h : RunVia dir code P s s') : MRun dir code s s' := by
  induction h with
  | nil => exact .nil _
  | snoc _ _ hs ih => exact .snoc ih hs

/-- A job goes on, with an unreadable clock, or ends. -/
def Silent (_ : Machine) (a : Move) : Prop := (∃ p, a = .ends p) ∨ ∃ p os ts, (∀ t : U128, some t ∉ ts) ∧ a = .works p os ts

/-- A process in the middle of a job, alone, comes to its end. -/
theorem job_ends {dir : Path} {code : Job → Prog Unit} (p : Nat) (rest : Prog Unit) (hst : Stepwise dir rest) : ∀ s : Machine, s.proc p = .busy rest → (∀ q, q ≠ p → ¬ (s.proc q).works) →
    ∃ s', RunVia dir code Silent s s' ∧ (∀ q, ¬ (s'.proc q).works) ∧ s'.did = s.did ∧ s.w.log <+: s'.w.log ∧ ∀ q, q ≠ p → s'.proc q = s.proc q := by
  induction hst with
  | ret r =>
    intro s hp ho
    refine ⟨s.setProc p .idle, .snoc (.nil s) (.inl ⟨p, rfl⟩) (.ends s p r hp), fun q hq => ?_, rfl, List.prefix_rfl, fun q e => if_neg e⟩
    have hq' : (if q = p then Proc.idle else s.proc q).works := hq
    by_cases e : q = p
    · rw [if_pos e] at hq'; exact hq'
    · rw [if_neg e] at hq'; exact ho q e hq'
  | @call a b β m k hsing hk ih =>
    intro s hp ho
    have hstep := MStep.works (dir := dir) (code := code) s p a b β m k hp (List.replicate a .ok) (List.replicate b none) (by simp) (by simp)
    have hlog := hsing.logs s.w (List.replicate a .ok) (List.replicate b none)
    rcases hm : m (s.w.given (List.replicate a .ok) (List.replicate b none)) with ⟨r, w'⟩
    rw [hm] at hstep hlog
    have hsilent : ∀ t : U128, some t ∉ List.replicate b none := fun t ht => by cases (List.mem_replicate.1 ht).2
    have go : ∀ r', MStep dir code s (.works p (List.replicate a .ok) (List.replicate b none)) { s.setProc p (.busy (k r')) with w := w' } →
        ∃ s', RunVia dir code Silent s s' ∧ (∀ q, ¬ (s'.proc q).works) ∧ s'.did = s.did ∧ s.w.log <+: s'.w.log ∧ ∀ q, q ≠ p → s'.proc q = s.proc q := by
      intro r' hs
      obtain ⟨s', h1, h2, h3, h4, h5⟩ := ih r' { s.setProc p (.busy (k r')) with w := w' } (if_pos rfl) fun q e hq => by
        have hq' : (if q = p then Proc.busy (k r') else s.proc q).works := hq
        rw [if_neg e] at hq'
        exact ho q e hq'
      exact ⟨s', .trans (.snoc (.nil s) (.inr ⟨p, _, _, hsilent, rfl⟩) hs) h1, h2, h3, hlog.trans h4, fun q e => (h5 q e).trans (if_neg e)⟩
    cases r with
    | ok x => exact go (.ok x) hstep
    | err e => exact go (.error e) hstep
    | crash =>
      refine ⟨_, .snoc (.nil s) (.inr ⟨p, _, _, hsilent, rfl⟩) hstep, fun q hq => ?_, rfl, hlog, fun q e => if_neg e⟩
      have hq' : (if q = p then Proc.absent else s.proc q).works := hq
      by_cases e : q = p
      · rw [if_pos e] at hq'; exact hq'
      · rw [if_neg e] at hq'; exact ho q e hq'

theorem MInv.finish {dir : Path} {σ : Type} {T : Turn dir σ} {A : Aead} {hash : List Char → U64} {x : σ} {code : Job → Prog Unit} {s : Machine} (h : MInv T A hash x s) :
    (∀ p q, (s.proc p).works → (s.proc q).works → p = q) ∧ ∃ s', RunVia dir code Silent s s' ∧ (∀ p, ¬ (s'.proc p).works) ∧ s'.did = s.did ∧ s.w.log <+: s'.w.log := by
  have huniq : ∀ p q, (s.proc p).works → (s.proc q).works → p = q := fun p q hp hq =>
    Option.some.inj (((h.holder p).1 (.inr hp)).symm.trans ((h.holder q).1 (.inr hq)))
  refine ⟨huniq, ?_⟩
  by_cases hn : ∀ p, ¬ (s.proc p).works
  · exact ⟨s, .nil s, hn, rfl, List.prefix_rfl⟩
  · rw [Classical.not_forall] at hn
    obtain ⟨p, hp⟩ := hn
    have hp := Classical.not_not.1 hp
    obtain ⟨rest, hrest⟩ := works_busy hp
    obtain ⟨s', h1, h2, h3, h4, _⟩ := job_ends (code := code) p rest (h.busy p rest hrest).stepwise s hrest fun q e hq => e (huniq q p hq hp)
    exact ⟨s', h1, h2, h3, h4⟩

/-! ## The theorems -/

/-- **C113.** Any number of clients of a user run at the same time, interleaved system call by system call, with failures and crashes anywhere, power losses, and other programs. Whenever nobody is in the middle of
a job, the machine is as after a history in which the same jobs (and power losses) happened one after the other, in the order in which they began: the same counter file, now and after a power loss, the same system calls, the same datagrams. -/
theorem C113_one_after_another {A : Aead} {hash : List Char → U64} {dir : Path} {code : Job → Prog Unit} (hcode : IsCode A hash dir code) {w : World} {s : Machine}
    (hr : MRun dir code (Machine.start w) s) (hq : ∀ p, ¬ (s.proc p).works) : ∃ evs v, CRun A hash dir w evs v ∧ evs.map did = s.did.map some ∧ Alike dir s.w v := by
  obtain ⟨v, ⟨evs, h1, h2⟩, h3⟩ := (minv_run hcode hr).quiet hq
  exact ⟨evs, v, h1, h2, h3⟩

/-- **C113**, nobody waits for anybody: whatever state the machine is in, at most one process is in the middle of a job, and it can come to the end of it with nobody else moving; what was sent until then has been sent. -/
theorem C113_finishes {A : Aead} {hash : List Char → U64} {dir : Path} {code : Job → Prog Unit} (hcode : IsCode A hash dir code) {w : World} {s : Machine} (hr : MRun dir code (Machine.start w) s) :
    (∀ p q, (s.proc p).works → (s.proc q).works → p = q) ∧
      ∃ s', MRun dir code s s' ∧ (∀ p, ¬ (s'.proc p).works) ∧ s'.did = s.did ∧ s.w.log <+: s'.w.log := by
  obtain ⟨h0, s', h1, h2, h3, h4⟩ := (minv_run hcode hr).finish (code := code)
  exact ⟨h0, s', h1.run, h2, h3, h4⟩

theorem wire_seen (dir : Path) (log : List Event) : wire (seen dir log) = wire log := by
  unfold wire seen
  rw [List.filterMap_filter]
  congr 1
  funext e
  cases e <;> simp

/-- **C113**, so that what holds of every history of runs one after the other holds of clients at the same time. The counters (C32): as long as nobody reseeds, the numbers of the datagrams strictly increase, whichever processes
send them and however they are interleaved, also while some of them are in the middle of a job. If the machine lost power in between, this is claimed when nobody is in the middle of a job, provided the directory fsyncs worked. -/
theorem C113_counters_increase {A : Aead} {hash : List Char → U64} {dir : Path} {code : Job → Prog Unit} (hcode : IsCode A hash dir code) {w : World} {s : Machine} (hr : MRun dir code (Machine.start w) s)
    (hnone : wire w.log = []) (hre : .job .reseed ∉ s.did) (hpow : .power ∈ s.did → (∀ p, ¬ (s.proc p).works) ∧ .dirSyncFailed (counterPath dir) ∉ s.w.log) :
    (wire s.w.log).Pairwise (fun a b => a.toNat < b.toNat) := by
  have key : ∀ s' : Machine, MRun dir code (Machine.start w) s' → (∀ p, ¬ (s'.proc p).works) → .job .reseed ∉ s'.did → (.power ∈ s'.did → .dirSyncFailed (counterPath dir) ∉ s'.w.log) →
      (wire s'.w.log).Pairwise (fun a b => a.toNat < b.toNat) := by
    intro s' hr' hq hre' hp'
    obtain ⟨evs, v, hrun, hdid, hal⟩ := C113_one_after_another hcode hr' hq
    have hmem : ∀ e ∈ evs, ∃ d, did e = some d ∧ d ∈ s'.did := fun e he => by
      have h1 : did e ∈ evs.map did := List.mem_map_of_mem he
      rw [hdid] at h1
      obtain ⟨d, hd, e1⟩ := List.mem_map.1 h1
      exact ⟨d, e1.symm, hd⟩
    have hw := C32_counters_never_reused A hash dir w v evs hnone hrun (fun env held hm => ?_) (fun hm hx => ?_)
    · have := hw.1
      rwa [← wire_seen dir v.log, ← hal.log, wire_seen] at this
    · obtain ⟨d, e1, hd⟩ := hmem _ hm
      cases held with
      | true => cases e1
      | false => cases e1; exact hre' hd
    · obtain ⟨d, e1, hd⟩ := hmem _ hm
      cases e1
      refine hp' hd ?_
      have h1 : .dirSyncFailed (counterPath dir) ∈ seen dir v.log := by
        unfold seen
        exact List.mem_filter.2 ⟨hx, by simp⟩
      rw [← hal.log] at h1
      exact (List.mem_filter.1 h1).1
  by_cases hp : .power ∈ s.did
  · exact key s hr (hpow hp).1 hre fun _ => (hpow hp).2
  · obtain ⟨_, s', h1, h2, h3, h4⟩ := C113_finishes hcode hr
    have := key s' (hr.trans h1) h2 (by rw [h3]; exact hre) fun h => absurd (h3 ▸ h) hp
    have hpre : wire s.w.log <+: wire s'.w.log := by
      obtain ⟨t, ht⟩ := h4
      rw [← ht]
      unfold wire
      rw [List.filterMap_append]
      exact List.prefix_append _ _
    exact this.sublist hpre.sublist

theorem can_open {dir : Path} {code : Job → Prog Unit} (s : Machine) (p : Nat) (hp : s.proc p = .absent) :
    ∃ a s', MStep dir code s a s' ∧ s'.proc = (fun q => if q = p then .opened else s.proc q) ∧ s'.holder = s.holder ∧ s'.did = s.did :=
  ⟨_, _, .opens s p .ok hp (.ok ()) _ rfl, rfl, rfl, rfl⟩

theorem can_lock {dir : Path} {code : Job → Prog Unit} (s : Machine) (p : Nat) (hp : s.proc p = .opened) (hh : s.holder = none) :
    ∃ a s', MStep dir code s a s' ∧ s'.proc = (fun q => if q = p then .idle else s.proc q) ∧ s'.holder = some p ∧ s'.did = s.did :=
  ⟨_, _, .granted s p hp hh, rfl, rfl, rfl⟩

theorem can_refuse {dir : Path} {code : Job → Prog Unit} (s : Machine) (p : Nat) (hp : s.proc p = .opened) (hh : s.holder ≠ some p) :
    ∃ a s', MStep dir code s a s' ∧ s'.proc = (fun q => if q = p then .absent else s.proc q) ∧ s'.holder = s.holder ∧ s'.did = s.did :=
  ⟨_, _, .refused s p hp, rfl, if_neg hh, rfl⟩

theorem can_begin {dir : Path} {code : Job → Prog Unit} (s : Machine) (p : Nat) (job : Job) (hp : s.proc p = .idle) :
    ∃ a s', MStep dir code s a s' ∧ s'.proc = (fun q => if q = p then .busy (code job) else s.proc q) ∧ s'.holder = s.holder ∧ s'.did = s.did ++ [.job job] :=
  ⟨_, _, .begins s p job hp, rfl, rfl, rfl⟩

/-! ## Every history with one event after the other is possible -/

/-- Nobody runs. -/
def Resting (s : Machine) : Prop := (∀ p, s.proc p = .absent) ∧ s.holder = none

/-- A step in the replay of a job with these readings of the clock, which takes the trace to `log`. -/
def Replays (dir : Path) (job : Job) (clock : List (Option U128)) (log : List Event) (s : Machine) (a : Move) : Prop :=
  (∀ p job', a = .begins p job' → job' = job) ∧
  ∀ p os ts, a = .works p os ts → (∃ l, s.did = l ++ [.job job]) ∧ seen dir s.w.log <+: seen dir log ∧ ∀ t : U128, some t ∈ ts → some t ∈ clock

theorem seen_prefix {dir : Path} {l l' : List Event} (h : l <+: l') : seen dir l <+: seen dir l' := h.filter _

theorem eval_logs {dir : Path} {α : Type} {rest : Prog α} (hst : Stepwise dir rest) : ∀ (u : World), u.log <+: (rest.eval u).2.log := by
  induction hst with
  | ret r => intro u; cases r <;> exact List.prefix_rfl
  | @call a b β m k hsing hk ih =>
    intro u
    have hlog := hsing.logs u u.oracle u.clock
    rw [show u.given u.oracle u.clock = u from rfl] at hlog
    rcases h : m u with ⟨o, w'⟩
    rw [h] at hlog
    cases o with
    | ok x => rw [eval_ok h]; exact hlog.trans (ih _ w')
    | err e => rw [eval_err h]; exact hlog.trans (ih _ w')
    | crash => rw [eval_crash h]; exact hlog

/-- What `m` takes from the lists. -/
theorem single_take {dir : Path} {a b : Nat} {β : Type} {m : Act β} (h : Single dir a b m) (u : World) (os : List Choice) (ts : List (Option U128)) :
    ∃ os' ts' o t, os'.length = a ∧ ts'.length = b ∧ (∀ x : U128, some x ∈ ts' → some x ∈ ts) ∧ (∀ x : U128, some x ∈ t → some x ∈ ts) ∧
      m (u.given os ts) = ((m (u.given os' ts')).1, (m (u.given os' ts')).2.given o t) := by
  have h1 : ∃ os' o, os'.length = a ∧ ∀ ts, m (u.given os ts) = m (u.given (os' ++ o) ts) := by
    rcases Nat.lt_or_ge os.length a with hl | hl
    · have ha : os = [] := List.length_eq_zero_iff.1 (by have := h.atMostOne; omega)
      exact ⟨List.replicate a .ok, [], by simp, fun ts => by rw [ha, List.append_nil]; exact (h.unlisted u [] ts).1⟩
    · exact ⟨os.take a, os.drop a, by simp; omega, fun ts => by rw [List.take_append_drop]⟩
  obtain ⟨os', o, ho, e1⟩ := h1
  rcases Nat.lt_or_ge ts.length b with hl | hl
  · have hb : ts = [] := List.length_eq_zero_iff.1 (by have := h.atMostOne; omega)
    refine ⟨os', List.replicate b none, o, [], ho, by simp, fun x hx => (by cases (List.mem_replicate.1 hx).2), nofun, ?_⟩
    rw [e1, hb, (h.unlisted u (os' ++ o) []).2, ← h.uses u os' (List.replicate b none) o [] ho (by simp), List.append_nil]
  · refine ⟨os', ts.take b, o, ts.drop b, ho, by simp; omega, fun x hx => List.mem_of_mem_take hx, fun x hx => List.mem_of_mem_drop hx, ?_⟩
    rw [← h.uses u os' (ts.take b) o (ts.drop b) ho (by simp; omega), List.take_append_drop, e1]

theorem job_replays {dir : Path} {code : Job → Prog Unit} (p : Nat) (job : Job) (clock : List (Option U128)) (log : List Event) (rest : Prog Unit) (hst : Stepwise dir rest) :
    ∀ (s : Machine) (u : World) (os : List Choice) (ts : List (Option U128)) (o : Out Unit) (u' : World), s.proc p = .busy rest → s.holder = some p → (∀ q, q ≠ p → s.proc q = .absent) → (∃ l, s.did = l ++ [.job job]) →
      Alike dir s.w u → (∀ t : U128, some t ∈ ts → some t ∈ clock) → rest.eval (u.given os ts) = (o, u') → seen dir u'.log = seen dir log →
      ∃ s', RunVia dir code (Replays dir job clock log) s s' ∧ Resting s' ∧ s'.did = s.did ∧ Alike dir s'.w u' := by
  induction hst with
  | ret r =>
    intro s u os ts o u' hp hh ho hd hal hts he hlog
    have r1 : RunVia dir code (Replays dir job clock log) s (s.setProc p .idle) := .snoc (.nil s) ⟨(fun _ _ h => by cases h), (fun _ _ _ h => by cases h)⟩ (.ends s p r hp)
    refine ⟨(s.setProc p .idle).exit p, .snoc r1 ⟨(fun _ _ h => by cases h), (fun _ _ _ h => by cases h)⟩ (.exits _ p ?_), ⟨fun q => ?_, ?_⟩, rfl, ?_⟩
    · show ¬ (if p = p then Proc.idle else s.proc p).works
      rw [if_pos rfl]
      exact id
    · show (if q = p then Proc.absent else if q = p then Proc.idle else s.proc q) = .absent
      by_cases e : q = p
      · rw [if_pos e]
      · rw [if_neg e, if_neg e, ho q e]
    · show (if s.holder = some p then none else s.holder) = none
      rw [if_pos hh]
    · have : u' = u.given os ts := by
        cases r <;> · cases he; rfl
      rw [this]
      exact hal.given s.w.oracle os s.w.clock ts
  | @call a b β m k hsing hk ih =>
    intro s u os ts o u' hp hh ho hd hal hts he hlog
    have hpre := eval_logs (.call hsing hk) (u.given os ts)
    rw [he] at hpre
    obtain ⟨os', ts', oo, tt, hos, hts', hin, hin', hm⟩ := single_take hsing u os ts
    have hstep := MStep.works (dir := dir) (code := code) s p a b β m k hp os' ts' hos hts'
    have hrep : Replays dir job clock log s (.works p os' ts') := by
      refine ⟨(fun _ _ h => by cases h), fun _ _ _ e => ?_⟩
      cases e
      refine ⟨hd, ?_, fun t ht => hts t (hin t ht)⟩
      rw [hal.log, ← hlog]
      exact seen_prefix hpre
    obtain ⟨e1, e2⟩ := hsing.own s.w u os' ts' hal hos hts'
    rcases hm1 : m (u.given os' ts') with ⟨r, w1⟩
    rcases hm2 : m (s.w.given os' ts') with ⟨r2, w2⟩
    rw [hm1, hm2] at e1 e2
    rw [hm1] at hm
    rw [hm2] at hstep
    have e1 : r2 = r := e1
    subst e1
    have go : ∀ r', MStep dir code s (.works p os' ts') { s.setProc p (.busy (k r')) with w := w2 } → (k r').eval (w1.given oo tt) = (o, u') →
        ∃ s', RunVia dir code (Replays dir job clock log) s s' ∧ Resting s' ∧ s'.did = s.did ∧ Alike dir s'.w u' := by
      intro r' hs hev
      obtain ⟨s', h1, h2, h3, h4⟩ := ih r' { s.setProc p (.busy (k r')) with w := w2 } w1 oo tt o u' (if_pos rfl) hh (fun q e => (if_neg e).trans (ho q e)) hd e2 (fun t ht => hts t (hin' t ht)) hev hlog
      exact ⟨s', .trans (.snoc (.nil s) hrep hs) h1, h2, h3, h4⟩
    cases r2 with
    | ok x => rw [eval_ok hm] at he; exact go (.ok x) hstep he
    | err e => rw [eval_err hm] at he; exact go (.error e) hstep he
    | crash =>
      rw [eval_crash hm] at he
      cases he
      refine ⟨_, .snoc (.nil s) hrep hstep, ⟨fun q => ?_, ?_⟩, rfl, e2.trans ((Alike.refl w1).given w1.oracle oo w1.clock tt)⟩
      · show (if q = p then Proc.absent else s.proc q) = .absent
        by_cases e : q = p
        · rw [if_pos e]
        · rw [if_neg e, ho q e]
      · show (if s.holder = some p then none else s.holder) = none
        rw [if_pos hh]

theorem alike_call {dir : Path} {ev : Event} {eff : World → World} {w w' : World} {o : Out Unit} (hev : seen dir [ev] = []) (heff : ∀ w, Alike dir (eff w) w ∧ (eff w).clock = w.clock) (h : atomicCall ev eff w = (o, w')) :
    Alike dir w' w ∧ w'.clock = w.clock := by
  have hl : ∀ o, Alike dir { w with log := w.log ++ [ev], oracle := o } w := fun o => ⟨fun _ _ => ⟨rfl, rfl⟩, rfl, by
    show seen dir (w.log ++ [ev]) = _
    unfold seen at hev ⊢
    rw [List.filter_append, hev, List.append_nil]⟩
  unfold atomicCall syscall at h
  cases ho : w.oracle with
  | nil =>
    simp only [ho] at h
    cases h
    exact ⟨(heff _).1.trans (hl []), (heff _).2⟩
  | cons c os =>
    simp only [ho] at h
    cases c with
    | ok => cases h; exact ⟨(heff _).1.trans (hl os), (heff _).2⟩
    | err k => cases h; exact ⟨hl os, rfl⟩
    | crash k =>
      simp only at h
      split at h
      · cases h; exact ⟨hl os, rfl⟩
      · cases h; exact ⟨(heff _).1.trans (hl os), (heff _).2⟩

theorem alike_acquire {dir : Path} {w w' : World} {o : Out Unit} (h : acquireLock (lockPath dir) false w = (o, w')) : Alike dir w' w ∧ w'.clock = w.clock := by
  have h : Act.bind (openCreate (lockPath dir)) (fun _ => Act.bind (atomicCall (.file .lock (lockPath dir)) id) fun _ => pure ()) w = (o, w') := h
  unfold Act.bind at h
  rcases h1 : openCreate (lockPath dir) w with ⟨o1, w1⟩
  have a1 := alike_call (dir := dir) (by simp [seen]) (fun w => ⟨alike_lockFile dir w, by unfold lockFile; cases w.fs (lockPath dir) <;> rfl⟩) h1
  rw [h1] at h
  cases o1 with
  | ok x =>
    simp only at h
    rcases h2 : atomicCall (.file .lock (lockPath dir)) id w1 with ⟨o2, w2⟩
    have a2 := alike_call (dir := dir) (by simp [seen]) (fun w => ⟨Alike.refl w, rfl⟩) h2
    rw [h2] at h
    have : w' = w2 := by
      cases o2 <;> · cases h; rfl
    subst this
    exact ⟨a2.1.trans a1.1, a2.2.trans a1.2⟩
  | err e => cases h; exact a1
  | crash => cases h; exact a1

/-- A machine on which nobody runs can do the job as in a history with one event after the other. -/
theorem replay {A : Aead} {hash : List Char → U64} {dir : Path} {code : Job → Prog Unit} (hcode : IsCode A hash dir code) {s : Machine} (hs : Resting s) {v u : World} (hal : Alike dir s.w v) {job : Job} {env : Env} {o : Out Unit}
    (h : runJob A hash dir job (v.withEnv env []) = (o, u)) :
    ∃ s', RunVia dir code (Replays dir job env.clock u.log) s s' ∧ Resting s' ∧ (s'.did = s.did ++ [.job job] ∨ s'.did = s.did) ∧ Alike dir s'.w u := by
  have h' : Act.bind (acquireLock (lockPath dir) false) (fun _ => job.body A hash dir) (v.withEnv env []) = (o, u) := h
  unfold Act.bind at h'
  rcases h1 : acquireLock (lockPath dir) false (v.withEnv env []) with ⟨o1, v1⟩
  obtain ⟨a1, c1⟩ := alike_acquire h1
  have a1 : Alike dir v1 v := a1.trans ⟨fun _ _ => ⟨rfl, rfl⟩, rfl, rfl⟩
  have c1 : v1.clock = env.clock := c1
  rw [h1] at h'
  cases o1 with
  | err e => cases h'; exact ⟨s, .nil s, hs, .inr rfl, hal.trans a1.symm⟩
  | crash => cases h'; exact ⟨s, .nil s, hs, .inr rfl, hal.trans a1.symm⟩
  | ok x =>
    simp only at h'
    have m1 := MStep.opens (dir := dir) (code := code) s 0 .ok (hs.1 0) (.ok ()) _ rfl
    generalize e1 : ({ s.setProc 0 (if Out.ok () = .ok () then .opened else .absent) with w := _ } : Machine) = s1 at m1
    have p1 : s1.proc = fun q => if q = 0 then .opened else s.proc q := by rw [← e1]; rfl
    have hh1 : s1.holder = none := by rw [← e1]; exact hs.2
    have d1 : s1.did = s.did := by rw [← e1]; rfl
    have al1 : Alike dir s1.w s.w := by rw [← e1]; exact alike_opened dir s.w .ok (.ok ()) _ rfl
    have m2 := MStep.granted (dir := dir) (code := code) s1 0 (by rw [p1]; rfl) hh1
    have m3 := MStep.begins (dir := dir) (code := code) { s1.setProc 0 .idle with w := { s1.w with log := s1.w.log ++ [.file .lock (lockPath dir)] }, holder := some 0 } 0 job rfl
    have r3 := ((RunVia.nil (dir := dir) (code := code) (P := Replays dir job env.clock u.log) s).snoc ⟨(fun _ _ h => by cases h), (fun _ _ _ h => by cases h)⟩ m1).snoc ⟨(fun _ _ h => by cases h), (fun _ _ _ h => by cases h)⟩ m2
    have r3 := r3.snoc (P := Replays dir job env.clock u.log) ⟨(fun p j e => by cases e; rfl), (fun _ _ _ h => by cases h)⟩ m3
    obtain ⟨s', g1, g2, g3, g4⟩ := job_replays (code := code) 0 job env.clock u.log (code job) (hcode job).2 { ({ s1.setProc 0 .idle with w := { s1.w with log := s1.w.log ++ [.file .lock (lockPath dir)] }, holder := some 0 } : Machine).setProc 0 (.busy (code job)) with did := s1.did ++ [.job job] } v1 v1.oracle v1.clock o u rfl rfl (fun q e => by
      show (if q = 0 then _ else if q = 0 then _ else s1.proc q) = _
      rw [if_neg e, if_neg e, p1]
      simp only [if_neg e, hs.1 q]) ⟨_, rfl⟩ (((alike_locked dir s1.w).trans al1).trans (hal.trans a1.symm)) (by rw [c1]; exact fun _ h => h) (by rw [(hcode job).1]; exact h') rfl
    refine ⟨s', r3.trans g1, g2, .inl (g3.trans ?_), g4⟩
    show s1.did ++ [.job job] = s.did ++ [.job job]
    rw [d1]

/-- The power is lost in the same way. -/
theorem replay_power {dir : Path} {code : Job → Prog Unit} {P : Machine → Move → Prop} {s : Machine} (hs : Resting s) {v v' : World} (hal : Alike dir s.w v) (h : Spec.PowerLoss v v') (hP : P s .power) :
    ∃ s', RunVia dir code P s s' ∧ Resting s' ∧ s'.did = s.did ++ [.power] ∧ Alike dir s'.w v' := by
  classical
  let w' : World := { s.w with fs := fun q => if Own dir q then v'.fs q else s.w.fs q, pend := fun _ => [], umask := v'.umask }
  have hv : Spec.PowerLoss s.w w' := by
    refine ⟨fun q => ?_, fun _ => rfl, rfl⟩
    by_cases hq : Own dir q
    · obtain ⟨f, hf, hsv⟩ := h.entries q
      rw [← (hal.files q hq).1, ← (hal.files q hq).2] at hf
      refine ⟨f, hf, ?_⟩
      show Survives f (if Own dir q then v'.fs q else s.w.fs q)
      rwa [if_pos hq]
    · refine ⟨s.w.fs q, List.mem_cons_self, ?_⟩
      show Survives _ (if Own dir q then v'.fs q else s.w.fs q)
      rw [if_neg hq]
      exact survives_self _
  refine ⟨_, .snoc (.nil s) hP (.power s w' (fun p hp => by rw [hs.1 p] at hp; exact hp) hv), ⟨fun _ => rfl, rfl⟩, rfl, fun q hq => ⟨?_, ?_⟩, rfl, ?_⟩
  · show (if Own dir q then v'.fs q else s.w.fs q) = _
    rw [if_pos hq]
  · exact (h.nothingPending q).symm
  · show seen dir s.w.log = seen dir v'.log
    rw [h.log]
    exact hal.log

/-- **C113**, conversely: every history of jobs and power losses one after the other is possible on the machine (with jobs whose lock file could not be opened left out), so nothing that is true of all runs of the machine is
true for lack of runs. -/
theorem C113_any_history {A : Aead} {hash : List Char → U64} {dir : Path} {code : Job → Prog Unit} (hcode : IsCode A hash dir code) {w v : World} {evs : List CEv} (h : CRun A hash dir w evs v) (hev : ∀ e ∈ evs, (did e).isSome) :
    ∃ s, MRun dir code (Machine.start w) s ∧ (∀ p, ¬ (s.proc p).works) ∧ s.did.Sublist (evs.filterMap did) ∧ Alike dir s.w v := by
  suffices ∃ s, MRun dir code (Machine.start w) s ∧ Resting s ∧ s.did.Sublist (evs.filterMap did) ∧ Alike dir s.w v by
    obtain ⟨s, h1, h2, h3, h4⟩ := this
    exact ⟨s, h1, fun p hp => by rw [h2.1 p] at hp; exact hp, h3, h4⟩
  induction h with
  | nil => exact ⟨Machine.start w, .nil _, ⟨fun _ => rfl, rfl⟩, List.Sublist.refl _, .refl w⟩
  | @snoc w' w'' evs e _ hstep ih =>
    obtain ⟨s, h1, h2, h3, h4⟩ := ih fun e he => hev e (List.mem_append_left _ he)
    have he := hev e (List.mem_append_right _ (List.mem_singleton.2 rfl))
    have job : ∀ j env o, e = event j env → runJob A hash dir j (w'.withEnv env []) = (o, w'') →
        ∃ s, MRun dir code (Machine.start w) s ∧ Resting s ∧ s.did.Sublist ((evs ++ [e]).filterMap did) ∧ Alike dir s.w w'' := by
      rintro j env o rfl hr
      obtain ⟨s', g1, g2, g3, g4⟩ := replay hcode h2 h4 hr
      refine ⟨s', h1.trans g1.run, g2, ?_, g4⟩
      rw [List.filterMap_append, show [event j env].filterMap did = [.job j] by rw [List.filterMap_cons, did_event]; rfl]
      rcases g3 with g3 | g3 <;> rw [g3]
      · exact h3.append (List.Sublist.refl _)
      · exact h3.trans (List.sublist_append_left _ _)
    cases hstep with
    | send env held cmd senv o _ hr =>
      cases held with
      | true => cases he
      | false => exact job (.send cmd senv) env o rfl hr
    | reseed env held o _ hr =>
      cases held with
      | true => cases he
      | false => exact job .reseed env o rfl hr
    | power _ hpl =>
      obtain ⟨s', g1, g2, g3, g4⟩ := replay_power (code := code) (P := fun _ _ => True) h2 h4 hpl trivial
      refine ⟨s', h1.trans g1.run, g2, ?_, g4⟩
      rw [List.filterMap_append, g3]
      exact h3.append (List.Sublist.refl _)
    | others _ _ _ _ => cases he

/-- Two processes: the first has begun a send when the second one starts, opens the lock file, and is refused; then the first finishes, and ends; the second, started again, gets the lock and
sends. For every way of cutting the client into steps there is such a run, and the theorems apply to it. -/
example (A : Aead) (hash : List Char → U64) (dir : Path) (cmd : SendCmd) (senv : SendEnv) (w : World) (code : Job → Prog Unit) (hcode : IsCode A hash dir code) :
    ∃ s, MRun dir code (Machine.start w) s ∧ (s.proc 1).works ∧ s.did = [.job (.send cmd senv), .job (.send cmd senv)] := by
  obtain ⟨_, s1, r1, p1, h1, d1⟩ := can_open (dir := dir) (code := code) (Machine.start w) 0 rfl
  obtain ⟨_, s2, r2, p2, h2, d2⟩ := can_lock (dir := dir) (code := code) s1 0 (by rw [p1]; rfl) h1
  obtain ⟨_, s3, r3, p3, h3, d3⟩ := can_begin (dir := dir) (code := code) s2 0 (.send cmd senv) (by rw [p2]; rfl)
  obtain ⟨_, s4, r4, p4, h4, d4⟩ := can_open (dir := dir) (code := code) s3 1 (by rw [p3, p2, p1]; rfl)
  obtain ⟨_, s5, r5, p5, h5, d5⟩ := can_refuse (dir := dir) (code := code) s4 1 (by rw [p4]; rfl) (by rw [h4, h3, h2]; simp)
  have hnone : ∀ q, q ≠ 0 → s5.proc q = .absent := fun q e => by
    rw [p5, p4, p3, p2, p1]
    by_cases e1 : q = 1
    · simp [e1]
    · simp [e1, e, Machine.start]
  obtain ⟨s6, r6, n6, d6, _, o6⟩ := job_ends (code := code) 0 (code (.send cmd senv)) (hcode _).2 s5 (by rw [p5, p4, p3]; rfl) fun q e => by rw [hnone q e]; exact id
  have r7 := MStep.exits (dir := dir) (code := code) s6 0 (n6 0)
  have R7 : MRun dir code (Machine.start w) (s6.exit 0) := .snoc ((((((MRun.one r1).snoc r2).snoc r3).snoc r4).snoc r5).trans r6.run) r7
  have a7 : ∀ q, (s6.exit 0).proc q = .absent := fun q => by
    show (if q = 0 then Proc.absent else s6.proc q) = .absent
    split
    · rfl
    · rename_i e
      rw [o6 q e, hnone q e]
  have h7 : (s6.exit 0).holder = none := by
    cases hx : (s6.exit 0).holder with
    | none => rfl
    | some q =>
      have := ((minv_run hcode R7).holder q).2 hx
      rw [a7 q] at this
      rcases this with g | g
      · cases g
      · exact g.elim
  obtain ⟨_, s8, r8, p8, h8, d8⟩ := can_open (dir := dir) (code := code) (s6.exit 0) 1 (a7 1)
  obtain ⟨_, s9, r9, p9, h9, d9⟩ := can_lock (dir := dir) (code := code) s8 1 (by rw [p8]; rfl) (h8.trans h7)
  obtain ⟨_, s10, r10, p10, h10, d10⟩ := can_begin (dir := dir) (code := code) s9 1 (.send cmd senv) (by rw [p9]; rfl)
  refine ⟨s10, ((R7.snoc r8).snoc r9).snoc r10, by rw [p10]; trivial, ?_⟩
  rw [d10, d9, d8, show (s6.exit 0).did = s6.did from rfl, d6, d5, d4, d3, d2, d1]
  rfl

end Ruroco.AtOnce
