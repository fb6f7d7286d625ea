import Verif.Props.Ui

/-!
# C49, lists of older versions

Older versions kept the saved commands as lines of text. Such a file is still read, and nothing in it is lost.
-/

namespace Ruroco

open Spec

/-- **C49**: a file in the old format, holding the text of each command of `l`, is read as exactly these commands, sorted, provided reading the file does not fail. -/
theorem C49_old_file (C : ListCodec) (dir : Path) (w w' : World) (u : Ui) (o : UiObs) (f : File) (l : List CommandData) (hl : ∀ d ∈ l, PlainCmd d ∧ Labelled d)
    (hf : w.fs (listPath dir) = some f) (hnew : C.dec f.data = none) (hold : C.legacy f.data = some (l.map dataToCommand)) (hread : ∀ k, w.oracle.head? ≠ some (.err k))
    (h : Ui.start C dir w = (.ok (u, o), w')) : SortedCmds u.list ∧ u.list.Perm l := by
  have hs : wp (Ui.start C dir) w (fun o _ => ∀ r, o = .ok r → r.1.list = sortCmds (l.map addCommandName)) := by
    unfold Ui.start loadCommands
    rw [wp_bind, wp_bind, wp_attempt]
    refine wp_mono (readFile_spec (listPath dir) w) ?_
    rintro o w' ⟨_, _, hres⟩
    rcases hres with ⟨g, hg, rfl⟩ | ⟨_, hn⟩ | ⟨_, k, hk⟩ | rfl
    · rw [hf] at hg
      cases hg
      rintro r hr
      cases hr
      simp only [hnew, hold, List.map_map]
      congr 1
      refine List.map_congr_left (fun d hd => ?_)
      show addCommandName (commandToData (dataToCommand d)) = addCommandName d
      rw [command_round_trip (hl d hd).1]
      exact addCommandName_of_labelled (addCommandName_labelled d)
    · rw [hn] at hf
      cases hf
    · exact absurd hk (hread k)
    · exact nofun
  unfold wp at hs
  rw [h] at hs
  have hu : u.list = sortCmds (l.map addCommandName) := hs _ rfl
  have hid : l.map addCommandName = l := by
    conv => rhs; rw [← List.map_id l]
    exact List.map_congr_left (fun d hd => addCommandName_of_labelled (hl d hd).2)
  rw [hu, hid]
  exact ⟨sortCmds_sorted l, sortCmds_perm l⟩

/-- A parser that only knows one old file. -/
def exOldCodec : ListCodec := ⟨fun _ => none, fun _ => none, fun b => if b = [1] then some ([exUiCmd, exUiCmd2].map dataToCommand) else none⟩

def exOldWorld : World := { exUiWorld [] with fs := fun p => if p = listPath "/c".toList then some ⟨[1], 0o600, true, ⟨"user".toList, "user".toList⟩⟩ else none }

example : (match (Ui.start exOldCodec "/c".toList exOldWorld).1 with | .ok (u, _) => u.list | _ => []) = [exUiCmd2, exUiCmd] := by decide +kernel

end Ruroco
