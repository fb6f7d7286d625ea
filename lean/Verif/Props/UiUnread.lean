import Verif.Props.Ui
import Verif.Props.Started

/-!
# C62: what becomes of a list of commands that could not be loaded
-/

namespace Ruroco

open Spec

variable {C : ListCodec} {A : Aead} {hash : List Char → U64} {T : TextCodec} {dir : Path}

/-- Whatever was in the file: if reading it fails, or it can not be parsed, the application starts with an empty list. -/
theorem unread_empty (w w1 : World) (u : Ui) (o : UiObs) (hs : Ui.start C dir w = (.ok (u, o), w1))
    (hbad : (∃ k, w.oracle.head? = some (.err k)) ∨ ∃ f, w.fs (listPath dir) = some f ∧ C.dec f.data = none ∧ C.legacy f.data = none) : u.list = [] := by
  have key : wp (Ui.start C dir) w (fun x _ => ∀ r, x = .ok r → r.1.list = []) := by
    unfold Ui.start loadCommands
    rw [wp_bind, wp_bind, wp_attempt]
    rcases hbad with ⟨k, hk⟩ | ⟨f, hf, hd, hl⟩
    · obtain ⟨t, ht⟩ : ∃ t, w.oracle = .err k :: t := by
        cases hw : w.oracle with
        | nil => rw [hw] at hk; cases hk
        | cons c t =>
          rw [hw] at hk
          exact ⟨t, by rw [Option.some.inj hk]⟩
      have hr : wp (readFile (listPath dir)) w (fun x _ => ∃ e, x = .err e) := by
        unfold readFile
        rw [wp_bind]
        unfold wp atomicCall syscall
        rw [ht]
        exact ⟨_, rfl⟩
      refine wp_mono hr ?_
      rintro x w' ⟨e, rfl⟩
      rintro r hr
      cases hr
      rfl
    · refine wp_mono (readFile_spec (listPath dir) w) ?_
      rintro x w' ⟨_, _, hres⟩
      cases x with
      | crash => exact nofun
      | err e =>
        rintro r hr
        cases hr
        rfl
      | ok b =>
        have hb : b = f.data := by
          rcases hres with ⟨g, hg, h⟩ | ⟨h, _⟩ | ⟨h, _⟩ | h
          · rw [hf] at hg
            cases hg
            cases h
            rfl
          · cases h
          · cases h
          · cases h
        subst hb
        simp only [hd, hl]
        rintro r hr
        cases hr
        rfl
  exact key _ (by rw [hs])

/-- **C62** fails whenever the list could not be loaded: whatever commands the file held and whatever was the reason (one failing read, or a file that is not understood), the first command that is
added after that start, with everything working, replaces the whole file by itself. -/
theorem C62_always_lost (hC : C.Correct) (w w1 w2 w3 : World) (u u' : Ui) (o o' : UiObs) (hs : Ui.start C dir w = (.ok (u, o), w1))
    (hbad : (∃ k, w.oracle.head? = some (.err k)) ∨ ∃ f, w.fs (listPath dir) = some f ∧ C.dec f.data = none ∧ C.legacy f.data = none)
    (hok : AllOk w2) (t : U128) (ts : List (Option U128)) (hclock : w2.clock = some t :: ts) (address command ip : List Char) (permissive ipv4 ipv6 : Bool)
    (ha : u.act C A hash T dir (.add address command ip permissive ipv4 ipv6) w2 = (.ok (u', o'), w3)) : ∃ c, o' = .added c ∧ u'.list = [c] ∧ Stored C w3 (listPath dir) [c] := by
  have hl := unread_empty w w1 u o hs hbad
  have key : wp (u.act C A hash T dir (.add address command ip permissive ipv4 ipv6)) w2 (fun x w' => ∀ r, x = .ok r → ∃ c, r.2 = .added c ∧ r.1.list = [c] ∧ Stored C w' (listPath dir) [c]) := by
    unfold Ui.act addCommand
    simp only [hl, List.nil_append]
    rw [wp_bind, wp_bind]
    have hone : ∀ c : CommandData, sortCmds [c] = [c] := fun c => rfl
    rw [hone]
    refine wp_mono (saveCommands_ok C hC (listPath dir) _ w2 hok t ts hclock) ?_
    rintro x w' ⟨rfl, hst⟩
    rintro r hr
    cases hr
    exact ⟨_, rfl, rfl, hst⟩
  exact key _ (by rw [ha]) |>.imp fun c h => by rw [ha] at h; exact h

/-- Over every history of the application (restarts, deaths at any point): the file of the list is the one that was there at first, or one that the application has written whole. -/
theorem C62_whole_or_untouched (w w' : World) (os : List UiObs) (u : Ui) (h : UiRun C A hash T dir w os u w') :
    w'.fs (listPath dir) = w.fs (listPath dir) ∨ ∃ l, Stored C w' (listPath dir) l := by
  have carry : ∀ {v v1 v2 : World}, (v1.fs (listPath dir) = v.fs (listPath dir) ∨ ∃ l, Stored C v1 (listPath dir) l) → v2.fs (listPath dir) = v1.fs (listPath dir) →
      v2.fs (listPath dir) = v.fs (listPath dir) ∨ ∃ l, Stored C v2 (listPath dir) l := by
    intro v v1 v2 h1 h2
    rcases h1 with h1 | ⟨l, b, f, hb, hf, hd⟩
    · exact Or.inl (h2.trans h1)
    · exact Or.inr ⟨l, b, f, hb, h2.trans hf, hd⟩
  have acted : ∀ (v : World) {v2 v3 : World} {x : Ui} {a : UiAction} {e : Out (Ui × UiObs)}, (v2.fs (listPath dir) = v.fs (listPath dir) ∨ ∃ l, Stored C v2 (listPath dir) l) →
      x.act C A hash T dir a v2 = (e, v3) → v3.fs (listPath dir) = v.fs (listPath dir) ∨ ∃ l, Stored C v3 (listPath dir) l := by
    intro v v2 v3 x a e h1 h2
    have := (act_spec C A hash T dir x a v2).2.2
    rw [h2] at this
    rcases this with h | h
    · exact carry h1 h
    · exact Or.inr ⟨_, h⟩
  have started : ∀ {v v1 : World} {r : Out (Ui × UiObs)}, Ui.start C dir v = (r, v1) → v1.fs (listPath dir) = v.fs (listPath dir) := by
    intro v v1 r h1
    have := (start_spec C dir v).2.1
    rw [h1] at this
    exact congrFun this _
  induction h with
  | start h => exact Or.inl (started h)
  | act a _ hfile h ih => exact acted _ (carry ih hfile) h
  | restart _ hfile h ih => exact carry (carry ih hfile) (started h)
  | crash a _ hfile hc hfile' h ih => exact carry (carry (acted _ (carry ih hfile) hc) hfile') (started h)

/-- The hypotheses of `C62_always_lost`: a file with one command, one failing read, then a command is added. -/
example : (exSession [exAdd2] { exUiWorld [.err 0] with fs := fun p => if p = listPath "/c".toList then some ⟨toyList [exUi1], 0o644, true, .creator⟩ else none }).isSome = true ∧
    (exUiWorld [.err 0]).oracle.head? = some (.err 0) := by decide +kernel

end Ruroco
