import Verif.Spec.Ui
import Verif.Lemmas.Bytes

/-! # A serialisation of the list of commands, to show that the hypotheses about the `toml` crate can be met -/

namespace Ruroco

/-- Each character as `1` and four bytes, then `0`. -/
def toyText : List Char → List Byte
  | [] => [0]
  | c :: t => 1 :: beBytes 4 c.toNat ++ toyText t

def toyUntext : List Byte → Option (List Char × List Byte)
  | x :: a :: b :: c :: d :: r =>
    if x = 0 then some ([], a :: b :: c :: d :: r)
    else
      match toyUntext r with
      | some (t, r) => some (Char.ofNat (ofBE [a, b, c, d]) :: t, r)
      | none => none
  | x :: r => if x = 0 then some ([], r) else none
  | [] => none

theorem toyUntext_text (t : List Char) (r : List Byte) : toyUntext (toyText t ++ r) = some (t, r) := by
  induction t with
  | nil =>
    show toyUntext (0 :: r) = _
    unfold toyUntext
    split <;> simp_all
  | cons c t ih =>
    have hl : (beBytes 4 c.toNat).length = 4 := by simp
    obtain ⟨a, b, c', d, hb⟩ : ∃ a b c' d, beBytes 4 c.toNat = [a, b, c', d] := by
      rcases h : beBytes 4 c.toNat with _ | ⟨a, _ | ⟨b, _ | ⟨c', _ | ⟨d, _ | ⟨e, l⟩⟩⟩⟩⟩ <;> rw [h] at hl <;> simp at hl
      exact ⟨a, b, c', d, rfl⟩
    have hv : ofBE [a, b, c', d] = c.toNat := by
      rw [← hb, ofBE_beBytes, Nat.mod_eq_of_lt]
      exact Nat.lt_of_lt_of_le c.val.toNat_lt (by decide)
    simp only [toyText, hb, List.cons_append, List.nil_append]
    rw [toyUntext, if_neg (by decide), ih]
    simp only [hv, Char.ofNat_toNat]

def toyBool (b : Bool) : Byte := if b then 1 else 0
def toyUnbool (b : Byte) : Bool := b == 1

theorem toyUnbool_bool (b : Bool) : toyUnbool (toyBool b) = b := by cases b <;> rfl

def toyCmd (d : CommandData) : List Byte :=
  [toyBool d.permissive, toyBool d.ipv4, toyBool d.ipv6] ++ toyText d.address ++ toyText d.command ++ toyText d.ip

def toyUncmd : List Byte → Option (CommandData × List Byte)
  | p :: v4 :: v6 :: r =>
    match toyUntext r with
    | some (a, r) =>
      match toyUntext r with
      | some (c, r) =>
        match toyUntext r with
        | some (i, r) => some (⟨a, c, toyUnbool p, i, toyUnbool v4, toyUnbool v6, []⟩, r)
        | none => none
      | none => none
    | none => none
  | _ => none

theorem toyUncmd_cmd (d : CommandData) (r : List Byte) : toyUncmd (toyCmd d ++ r) = some ({ d with name := [] }, r) := by
  unfold toyCmd
  simp only [List.append_assoc, List.cons_append, List.nil_append]
  unfold toyUncmd
  simp only [toyUntext_text, toyUnbool_bool]

def toyList : List CommandData → List Byte
  | [] => [0]
  | d :: l => 1 :: toyCmd d ++ toyList l

def toyUnlist : Nat → List Byte → Option (List CommandData)
  | n + 1, x :: r =>
    if x = 0 then some []
    else
      match toyUncmd r with
      | some (d, r) =>
        match toyUnlist n r with
        | some l => some (d :: l)
        | none => none
      | none => none
  | _, _ => none

theorem toyUnlist_list (l : List CommandData) (n : Nat) (hn : l.length < n) : toyUnlist n (toyList l) = some (l.map (fun d => { d with name := [] })) := by
  induction l generalizing n with
  | nil =>
    cases n with
    | zero => simp at hn
    | succ n => simp [toyList, toyUnlist]
  | cons d l ih =>
    cases n with
    | zero => simp at hn
    | succ n =>
      simp only [List.length_cons] at hn
      show toyUnlist (n + 1) (1 :: toyCmd d ++ toyList l) = _
      rw [List.cons_append, toyUnlist, if_neg (by decide), toyUncmd_cmd]
      simp only [ih n (by omega), List.map_cons]

theorem toyList_length (l : List CommandData) : l.length < (toyList l).length := by
  induction l with
  | nil => simp [toyList]
  | cons d l ih =>
    simp only [toyList, List.length_cons, List.length_append]
    omega

def toyListCodec : ListCodec where
  enc l := some (toyList l)
  dec b := toyUnlist b.length b
  legacy _ := none

theorem toyListCodec_correct (l : List CommandData) : ∃ b, toyListCodec.enc l = some b ∧ toyListCodec.dec b = some (l.map (fun d => { d with name := [] })) :=
  ⟨toyList l, rfl, toyUnlist_list l _ (toyList_length l)⟩

end Ruroco
