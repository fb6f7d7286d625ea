import Verif.Model.History
import Verif.Model.ClientHistory

/-!
# Specification vocabulary: what is visible of a key

A key is replaced by another one (even of another cipher) that shows the same face: the same id, and the same results of sealing (client) or opening (server). If a program can not tell the two
apart, and nobody watching it can, the key is used for nothing but sealing and opening.
-/

namespace Ruroco.Spec

/-- The two key texts are refused alike, or have the same id and seal alike. -/
def SealAlike (A1 : Aead) (t1 : List Char) (A2 : Aead) (t2 : List Char) : Prop :=
  match CryptoHandler.create t1, CryptoHandler.create t2 with
  | .error e1, .error e2 => e1 = e2
  | .ok k1, .ok k2 => k1.id = k2.id ∧ ∀ iv plaintext, A1.enc k1.key iv plaintext = A2.enc k2.key iv plaintext
  | _, _ => False

/-- The two key texts are refused alike, or have the same id and open alike. -/
def OpenAlike (A1 : Aead) (t1 : List Char) (A2 : Aead) (t2 : List Char) : Prop :=
  match CryptoHandler.create t1, CryptoHandler.create t2 with
  | .error e1, .error e2 => e1 = e2
  | .ok k1, .ok k2 => k1.id = k2.id ∧ ∀ iv tag ciphertext, A1.dec k1.key iv tag ciphertext = A2.dec k2.key iv tag ciphertext
  | _, _ => False

/-- Two entries of a directory that differ in the key only. -/
def EntryAlike (A1 A2 : Aead) (e1 e2 : DirEntry) : Prop :=
  e1.name = e2.name ∧ e1.isFile = e2.isFile ∧
    match e1.content, e2.content with
    | none, none => True
    | some t1, some t2 => OpenAlike A1 t1 A2 t2
    | _, _ => False

/-- Two lists that agree element by element. -/
inductive Pointwise {α β : Type} (R : α → β → Prop) : List α → List β → Prop
  | nil : Pointwise R [] []
  | cons {a : α} {b : β} {as : List α} {bs : List β} : R a b → Pointwise R as bs → Pointwise R (a :: as) (b :: bs)

def DirAlike (A1 A2 : Aead) : Option (List DirEntry) → Option (List DirEntry) → Prop
  | none, none => True
  | some d1, some d2 => Pointwise (EntryAlike A1 A2) d1 d2
  | _, _ => False

/-- Two events of a server that differ in the keys found at a start only. -/
def EvAlike (A1 A2 : Aead) : Ev → Ev → Prop
  | .start env cfg senv, .start env' cfg' senv' => env = env' ∧ cfg = cfg' ∧ DirAlike A1 A2 senv.dir senv'.dir ∧ senv.order = senv'.order ∧ senv.bindOk = senv'.bindOk ∧ senv.mono = senv'.mono
  | .packet env dg src rd t, .packet env' dg' src' rd' t' => env = env' ∧ dg = dg' ∧ src = src' ∧ rd = rd' ∧ t = t'
  | .kill, .kill => True
  | .power, .power => True
  | .others, .others => True
  | _, _ => False

/-- The texts of two key files (or none can be read) that differ in the key only; the client trims them. -/
def KeyFileAlike (A1 A2 : Aead) : Option (List Char) → Option (List Char) → Prop
  | none, none => True
  | some t1, some t2 => SealAlike A1 (trim t1) A2 (trim t2)
  | _, _ => False

/-- Two events of a client that differ in the key of a send only. -/
def CEvAlike (A1 A2 : Aead) : CEv → CEv → Prop
  | .send env held cmd senv, .send env' held' cmd' senv' => env = env' ∧ held = held' ∧ cmd = cmd' ∧ KeyFileAlike A1 A2 senv.keyText senv'.keyText ∧ senv.resolve = senv'.resolve ∧ senv.rnd = senv'.rnd
  | .reseed env held, .reseed env' held' => env = env' ∧ held = held'
  | .power, .power => True
  | .others, .others => True
  | _, _ => False

end Ruroco.Spec
