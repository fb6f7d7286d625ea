import Verif.Lemmas.Damage
import Verif.Props.Reach
import Verif.Spec.Damage

/-!
# C117: a damaged replay-state file is noticed

Not so: the file has no checksum. A changed byte of a counter is read as another counter, and if that is lower, requests executed before are executed again.
-/

namespace Ruroco

open Spec (forwards onDisk ByteChanged)

theorem BlMap.get_foldl_congr {m m' : BlMap} {k : List Byte} (h : m.get k = m'.get k) (es : BlMap) :
    (es.foldl (fun m e => BlMap.insert m e.1 e.2) m).get k = (es.foldl (fun m e => BlMap.insert m e.1 e.2) m').get k := by
  induction es generalizing m m' with
  | nil => exact h
  | cons e es ih =>
    simp only [List.foldl_cons]
    apply ih
    rw [BlMap.get_insert, BlMap.get_insert, h]

theorem BlMap.get_take (l : BlMap) (n : Nat) (k : List Byte) : BlMap.get (l.take n) k = BlMap.get l k ∨ BlMap.get (l.take n) k = none := by
  induction l generalizing n with
  | nil => left; simp
  | cons e l ih =>
    cases n with
    | zero => right; rfl
    | succ n =>
      obtain ⟨k', v⟩ := e
      simp only [List.take_succ_cons, BlMap.get]
      split
      · exact .inl rfl
      · exact ih n

theorem decodeBl_some {X : List Byte} {m' : BlMap} (h : decodeBl (0x91 :: X) = some m') :
    ∃ n r es r2, decMapHeader X = some (n, r) ∧ decEntries n r = some (es, r2) ∧ m' = es.foldl (fun m e => BlMap.insert m e.1 e.2) [] := by
  have h0 : arrHeader 1 (0x91 :: X) = some X := by simp [arrHeader]
  simp only [decodeBl, h0] at h
  split at h
  · cases h
  · rename_i n r h1
    split at h
    · cases h
    · rename_i es r2 h2
      cases h
      exact ⟨n, r, es, r2, h1, h2, rfl⟩

theorem decMapHeader_some {a : Byte} {t r : List Byte} {n : Nat} (h : decMapHeader (a :: t) = some (n, r)) :
    (128 ≤ a.toNat ∧ a.toNat < 144 ∧ n = a.toNat - 128 ∧ r = t) ∨ (a = 0xde ∧ 2 ≤ t.length ∧ n = ofBE (t.take 2) ∧ r = t.drop 2) ∨ (a = 0xdf ∧ 4 ≤ t.length ∧ n = ofBE (t.take 4) ∧ r = t.drop 4) := by
  simp only [decMapHeader, takeN] at h
  split at h
  · rename_i h1
    obtain ⟨h2, h3⟩ := Prod.mk.inj (Option.some.inj h)
    exact .inl ⟨h1.1, h1.2, h2.symm, h3.symm⟩
  · split at h
    · rename_i h2
      split at h
      · rename_i v r' hv
        split at hv
        · rename_i hle
          cases hv
          cases h
          exact .inr (.inl ⟨h2, hle, rfl, rfl⟩)
        · cases hv
      · cases h
    · split at h
      · rename_i h2
        split at h
        · rename_i v r' hv
          split at hv
          · rename_i hle
            cases hv
            cases h
            exact .inr (.inr ⟨h2, hle, rfl, rfl⟩)
          · cases hv
        · cases h
      · cases h

theorem decVal_key (y : Byte) (t : List Byte) : decVal (encU8 y ++ t) = none := by
  cases h : decVal (encU8 y ++ t) with
  | none => rfl
  | some p =>
    obtain ⟨t2, h1, _⟩ := decVal_some h
    unfold encU8 at h1
    split at h1
    · rename_i hy
      simp only [List.cons_append, List.cons.injEq] at h1
      rw [h1.1] at hy
      exact absurd hy (by decide)
    · simp at h1

/-- An entry is not read out of step by two bytes. -/
theorem decEntry_off2 (x y : Byte) (e : List Byte × U128) (h8 : e.1.length = 8) (R : List Byte) : decEntry (x :: y :: (encEntry e ++ R)) = none := by
  cases h : decEntry (x :: y :: (encEntry e ++ R)) with
  | none => rfl
  | some p =>
    obtain ⟨e', r⟩ := p
    exfalso
    obtain ⟨t, r', ht, h1, h2⟩ := decEntry_some h
    obtain ⟨k, v⟩ := e
    have h98 : (0x98 : Byte).toNat = 152 := rfl
    simp only [encEntry, encKey, List.cons_append] at ht
    rcases arrHeader_some ht with ⟨_, rfl⟩ | ⟨p, hp, h3, h4, rfl⟩
    · obtain ⟨b, r1, k1, h3, h4, _⟩ := decU8s_succ (n := 7) h1
      rcases decU8_some h3 with ⟨_, _, rfl⟩ | ⟨_, p, l, h5, h6, h7, _, rfl⟩
      · obtain ⟨_, _, _, h5, _⟩ := decU8s_succ (n := 6) h4
        rcases decU8_some h5 with ⟨h6, _⟩ | ⟨_, p, l, h6, _⟩
        · exact absurd h6 (by decide)
        · exact absurd (intForm_some h6).1 (by decide)
      · obtain ⟨_, _, hp, hl, hone⟩ := intForm_some h5
        rcases p with _ | _ | p
        · omega
        · rw [List.take_succ_cons, List.take_zero, ofBE_cons, h98] at h7
          rcases hone rfl with ⟨rfl, _⟩ | ⟨_, rfl⟩
          · simp only [List.drop_succ_cons, List.drop_zero] at h4
            obtain ⟨k7, z, rfl⟩ : ∃ k7 z, k = k7 ++ [z] := ⟨k.dropLast, k.getLast (by intro h; rw [h] at h8; cases h8), (List.dropLast_concat_getLast _).symm⟩
            have h7' : k7.length = 7 := by simp at h8; exact h8
            rw [← h7'] at h4
            simp only [List.flatMap_append, List.flatMap_cons, List.flatMap_nil, List.append_nil, List.append_assoc] at h4
            rw [decU8s_enc] at h4
            obtain ⟨_, rfl⟩ := Prod.mk.inj (Option.some.inj h4)
            rw [decVal_key] at h2
            cases h2
          · simp only [List.length_nil, Nat.pow_zero] at h7
            omega
        · rw [List.take_succ_cons, ofBE_cons, h98] at h7
          have : (List.take (p + 1) (k.flatMap encU8 ++ encVal v ++ R)).length = p + 1 := by
            simp only [List.length_cons] at h6
            rw [List.length_take]; omega
          rw [this, Nat.pow_succ] at h7
          have := Nat.one_le_pow p 256 (by decide)
          omega
    · rcases hp with ⟨_, rfl⟩ | ⟨_, rfl⟩
      · rw [List.take_succ_cons, List.take_succ_cons, List.take_zero, ofBE_cons, ofBE_cons, h98] at h4
        simp [ofBE] at h4
      · rw [List.take_succ_cons, List.take_succ_cons, ofBE_cons, ofBE_cons, h98] at h4
        have : (List.take 2 (k.flatMap encU8 ++ encVal v ++ R)).length = 2 := by
          simp only [List.length_cons] at h3
          rw [List.length_take]; omega
        rw [this] at h4
        omega

/-- A changed byte of the number of entries: another number, or none at all. -/
theorem header_changed (l : BlMap) (h8 : ∀ k ∈ l.map Prod.fst, k.length = 8) (hl : l.length < 65536) (i : Nat) (b : Byte) (hi : i < (mapHeader l.length).length) {n : Nat} {r r2 : List Byte} {es : BlMap}
    (h : decMapHeader ((mapHeader l.length).set i b ++ l.flatMap encEntry) = some (n, r)) (hd : decEntries n r = some (es, r2)) : ∃ n', es = l.take n' := by
  have hE := encEntries_length l h8
  have hsh := decEntries_shorter hd
  have zero : n = 0 → ∃ n', es = l.take n' := by
    rintro rfl
    simp only [decEntries] at hd
    cases hd
    exact ⟨0, rfl⟩
  have same : r = l.flatMap encEntry → ∃ n', es = l.take n' := by
    rintro rfl
    exact ⟨n, decEntries_count l h8 hd⟩
  by_cases h16 : l.length < 16
  · have hm : mapHeader l.length = [BitVec.ofNat 8 (0x80 + l.length)] := by unfold mapHeader; rw [if_pos h16]
    rw [hm] at h hi
    simp only [List.length_singleton] at hi
    have : i = 0 := by omega
    subst this
    simp only [List.set_cons_zero, List.cons_append, List.nil_append] at h
    rcases decMapHeader_some h with ⟨_, _, _, h4⟩ | ⟨_, h2, h3, h4⟩ | ⟨_, h2, h3, h4⟩
    · exact same h4
    · exfalso
      have : 0x98 * 256 ≤ n := by
        rw [h3]
        cases l with
        | nil => simp at h2
        | cons e l =>
          simp only [List.flatMap_cons, encEntry, encKey, List.cons_append, List.take_succ_cons]
          rw [ofBE_cons]
          simp only [List.flatMap_cons, encEntry, encKey, List.cons_append, List.length_cons] at h2
          rw [List.length_take, Nat.min_eq_left (by omega)]
          simp
      have hr : r.length ≤ (l.flatMap encEntry).length := by rw [h4, List.length_drop]; omega
      omega
    · exfalso
      have : 0x98 * 16777216 ≤ n := by
        rw [h3]
        cases l with
        | nil => simp at h2
        | cons e l =>
          simp only [List.flatMap_cons, encEntry, encKey, List.cons_append, List.take_succ_cons]
          rw [ofBE_cons]
          simp only [List.flatMap_cons, encEntry, encKey, List.cons_append, List.length_cons] at h2
          rw [List.length_take, Nat.min_eq_left (by omega)]
          simp
      have hr : r.length ≤ (l.flatMap encEntry).length := by rw [h4, List.length_drop]; omega
      omega
  · obtain ⟨hi1, lo, hb⟩ : ∃ x y, beBytes 2 l.length = [x, y] := by
      have := beBytes_length 2 l.length
      match hb : beBytes 2 l.length with
      | [x, y] => exact ⟨x, y, rfl⟩
      | [] => rw [hb] at this; cases this
      | [_] => rw [hb] at this; cases this
      | _ :: _ :: _ :: _ => rw [hb] at this; simp at this
    have hn : ofBE [hi1, lo] = l.length := by
      rw [← hb, ofBE_beBytes]
      exact Nat.mod_eq_of_lt (by omega)
    have hm : mapHeader l.length = [0xde, hi1, lo] := by unfold mapHeader; rw [if_neg h16, if_pos hl, hb]
    rw [hm] at h hi
    obtain ⟨e, l', rfl⟩ : ∃ e l', l = e :: l' := by
      cases l with
      | nil => simp at h16
      | cons e l' => exact ⟨e, l', rfl⟩
    rcases i with _ | _ | _ | i
    · simp only [List.set_cons_zero, List.cons_append, List.nil_append] at h
      rcases decMapHeader_some h with ⟨_, _, _, h4⟩ | ⟨_, h2, h3, h4⟩ | ⟨_, h2, h3, h4⟩
      · cases n with
        | zero => exact zero rfl
        | succ n =>
          obtain ⟨e1, r1, _, h5, _⟩ := decEntries_succ hd
          rw [h4, List.flatMap_cons, decEntry_off2 _ _ e (h8 _ (by simp))] at h5
          cases h5
      · exact same (by rw [h4]; rfl)
      · exfalso
        have : 65536 * (e :: l').length ≤ n := by
          rw [h3, show List.take 4 (hi1 :: lo :: List.flatMap encEntry (e :: l')) = [hi1, lo] ++ List.take 2 (List.flatMap encEntry (e :: l')) from rfl, ofBE_append', hn]
          simp only [List.length_cons] at h2
          rw [List.length_take, Nat.min_eq_left (by omega)]
          omega
        have hr : r.length ≤ (List.flatMap encEntry (e :: l')).length := by rw [h4]; simp only [List.drop_succ_cons, List.length_drop]; omega
        omega
    · simp only [List.set_cons_zero, List.set_cons_succ, List.cons_append, List.nil_append] at h
      rcases decMapHeader_some h with ⟨h1, h2, _⟩ | ⟨_, _, _, h4⟩ | ⟨h1, _⟩
      · exact absurd h2 (by decide)
      · exact same (by rw [h4]; rfl)
      · cases h1
    · simp only [List.set_cons_zero, List.set_cons_succ, List.cons_append, List.nil_append] at h
      rcases decMapHeader_some h with ⟨h1, h2, _⟩ | ⟨_, _, _, h4⟩ | ⟨h1, _⟩
      · exact absurd h2 (by decide)
      · exact same (by rw [h4]; rfl)
      · cases h1
    · simp only [List.length_cons, List.length_nil] at hi
      omega

/-- What one changed byte can do: one entry reads as another, or entries are lost. -/
theorem read_changed (l : BlMap) (hwf : l.Wf) (hsmall : ∀ e ∈ l, e.2.toNat < 2 ^ 64) (hl : l.length < 65536) {bs : List Byte} (h : encodeBl l = .ok bs) (i : Nat) (b : Byte) (hi : i < bs.length) {m' : BlMap} (hm : decodeBl (bs.set i b) = some m') :
    (∃ k k2, ∀ k', k' ≠ k → k' ≠ k2 → m'.get k' = l.get k') ∨ (∀ k', m'.get k' = l.get k' ∨ m'.get k' = none) := by
  have h8 := hwf.key_length
  obtain ⟨hlen, rfl⟩ := encodeBl_ok h
  have htake : ∀ n, (l.take n).foldl (fun m e => BlMap.insert m e.1 e.2) [] = l.take n := fun n =>
    BlMap.foldl_insert_nil _ (List.Nodup.sublist ((List.take_sublist n l).map Prod.fst) hwf.nodup)
  have lost : ∀ n es, es = l.take n → m' = es.foldl (fun m e => BlMap.insert m e.1 e.2) [] → ∀ k', m'.get k' = l.get k' ∨ m'.get k' = none := by
    rintro n es rfl rfl k'
    rw [htake]
    exact BlMap.get_take l n k'
  rcases i with _ | i
  · right
    by_cases hb : b = 0x91
    · subst hb
      simp only [List.cons_append, List.set_cons_zero] at hm
      obtain ⟨n, r, es, r2, h1, h2, h3⟩ := decodeBl_some hm
      rw [decMapHeader_enc _ hlen] at h1
      cases h1
      exact lost _ _ (decEntries_count l h8 h2) h3
    · exfalso
      have hb' : b.toNat ≠ 0x90 + 1 := fun h => hb (BitVec.eq_of_toNat_eq h)
      simp only [List.cons_append, List.set_cons_zero, decodeBl] at hm
      cases h0 : arrHeader 1 (b :: (mapHeader l.length ++ l.flatMap encEntry)) with
      | none => simp [h0] at hm
      | some X =>
        rcases arrHeader_some h0 with ⟨h1, _⟩ | ⟨p, hp, h3, h4, _⟩
        · exact hb' h1
        · obtain ⟨y, ys, hy, hys⟩ : ∃ y ys, mapHeader l.length = y :: ys ∧ 1 < y.toNat := by
            unfold mapHeader
            split
            · rename_i h16
              refine ⟨_, _, rfl, ?_⟩
              rw [BitVec.toNat_ofNat]
              omega
            · exact ⟨_, _, rfl, by decide⟩
          obtain ⟨q, rfl⟩ : ∃ q, p = q + 1 := ⟨p - 1, by omega⟩
          rw [hy, List.cons_append, List.take_succ_cons, ofBE_cons] at h4
          have := Nat.one_le_pow (List.take q (ys ++ l.flatMap encEntry)).length 256 (by decide)
          have := Nat.mul_le_mul (Nat.le_of_lt_succ (Nat.succ_lt_succ hys)) this
          omega
  · simp only [List.cons_append, List.set_cons_succ] at hm
    obtain ⟨n, r, es, r2, h1, h2, h3⟩ := decodeBl_some hm
    rw [List.set_append] at h1
    by_cases hlt : i < (mapHeader l.length).length
    · right
      rw [if_pos hlt] at h1
      obtain ⟨n', hn'⟩ := header_changed l h8 hl i b hlt h1 h2
      exact lost n' es hn' h3
    · left
      rw [if_neg hlt, decMapHeader_enc _ hlen] at h1
      cases h1
      simp only [List.cons_append, List.length_cons, List.length_append] at hi
      obtain ⟨a, e, c, e', he, rfl⟩ := decEntries_set l h8 hsmall _ b (by omega) h2
      refine ⟨e.1, e'.1, fun k' h1 h2 => ?_⟩
      have hl' : l.get k' = BlMap.get ((a ++ e :: c).foldl (fun m e => BlMap.insert m e.1 e.2) []) k' := by
        rw [← he, BlMap.foldl_insert_nil _ hwf.nodup]
      rw [hl', h3, List.foldl_append, List.foldl_append, List.foldl_cons, List.foldl_cons]
      apply BlMap.get_foldl_congr
      rw [BlMap.get_insert, BlMap.get_insert, if_neg h2, if_neg h1]

/-- **C117 (partial): what can be noticed is, and one changed byte does not reach further than two keys.** The replay-state file was written for the counters `l` (fewer than 65536 keys, counters up to the year 2554) and then one
of its bytes was changed. A start either refuses, leaving the file as it is, or knows the right counter of every key but two (the key of the damaged entry, and the key it now names), or knows for
every key the right counter or else, if the key is still in use, the time of the start. Missing: that the damage is noticed, which is false (`C117_unnoticed`). -/
theorem C117_one_byte_partial (cfg : ServerCfg) (senv : StartEnv) (hord : ∀ m, (senv.order m).Perm m) (w0 w w' : World) (o : Out Server) (l : BlMap) (hwf : l.Wf) (hsmall : ∀ e ∈ l, e.2.toNat < 2 ^ 64) (hl : l.length < 65536) (f : File)
    (hf : w0.fs (blocklistPath cfg.blDir) = some f) (hw : encodeBl l = .ok f.data) (i : Nat) (b : Byte) (hdam : ByteChanged w0 w (blocklistPath cfg.blDir) i b)
    (h : Server.create cfg senv w = (o, w')) (hstat : .statFailed (blocklistPath cfg.blDir) ∉ w'.log) :
    ((∀ s, o ≠ .ok s) ∧ w'.fs (blocklistPath cfg.blDir) = w.fs (blocklistPath cfg.blDir)) ∨
    (∀ s, o = .ok s → ∃ k k2, ∀ k' v, k' ≠ k → k' ≠ k2 → l.get k' = some v → s.bl.map.get k' = some v) ∨
    (∀ s, o = .ok s → ∃ start, some start ∈ w.clock ∧ ∀ k' v, l.get k' = some v →
      s.bl.map.get k' = some v ∨ s.bl.map.get k' = (if k' ∈ s.handlers.map Prod.fst then some start else none)) := by
  have hc := created_of_step hord h
  obtain ⟨f', hf', hi, hw'⟩ := hdam
  rw [hf] at hf'
  cases hf'
  have hfs : w.fs (blocklistPath cfg.blDir) = some { f with data := f.data.set i b } := by rw [hw']; exact if_pos rfl
  cases hd : decodeBl (f.data.set i b) with
  | none => exact .inl ⟨(hc.unparsable _ hfs hd hstat).1, (hc.unparsable _ hfs hd hstat).2.1⟩
  | some m' =>
    have hld : Loaded w (blocklistPath cfg.blDir) m' := .inr ⟨_, hfs, hd⟩
    have known : ∀ s, o = .ok s → ∃ start, some start ∈ w.clock ∧ ∀ k, s.bl.map.get k = (m'.get k).or (if k ∈ s.handlers.map Prod.fst then some start else none) := by
      intro s hs
      obtain ⟨_, _, hp, _, _, _, _, _, m, floor, ht, hfl, hsd⟩ := hc.ok s hs
      rw [hp] at ht
      rcases ht with ht | ⟨_, ht⟩
      · rw [ht.unique hld] at hsd
        exact ⟨floor, hfl, hsd.get⟩
      · exact absurd ht hstat
    rcases read_changed l hwf hsmall hl hw i b hi hd with ⟨k, k2, hk⟩ | hk
    · refine .inr (.inl fun s hs => ⟨k, k2, fun k' v h1 h2 h3 => ?_⟩)
      obtain ⟨_, _, h4⟩ := known s hs
      rw [h4, hk k' h1 h2, h3]
      rfl
    · refine .inr (.inr fun s hs => ?_)
      obtain ⟨start, h3, h4⟩ := known s hs
      refine ⟨start, h3, fun k' v h5 => ?_⟩
      rw [h4]
      rcases hk k' with h6 | h6
      · rw [h6, h5]
        exact .inl rfl
      · rw [h6]
        exact .inr rfl

/-- **C117: a file cut short is noticed.** If only the beginning of what was written is left, at any length, the start fails and the file stays as it is. -/
theorem C117_cut_short_refused (cfg : ServerCfg) (senv : StartEnv) (hord : ∀ m, (senv.order m).Perm m) (w w' : World) (o : Out Server) (l : BlMap) (hwf : l.Wf) (bs : List Byte)
    (hw : encodeBl l = .ok bs) (n : Nat) (hn : n < bs.length) (f : File) (hf : w.fs (blocklistPath cfg.blDir) = some f) (hdat : f.data = bs.take n)
    (h : Server.create cfg senv w = (o, w')) (hstat : .statFailed (blocklistPath cfg.blDir) ∉ w'.log) : (∀ s, o ≠ .ok s) ∧ w'.fs (blocklistPath cfg.blDir) = some f := by
  have hc := created_of_step hord h
  have hd : decodeBl f.data = none := by
    rw [hdat]
    refine decodeBl_truncated hwf hw (List.take_append_drop n bs).symm ?_
    intro hd
    have := congrArg List.length hd
    simp at this
    omega
  obtain ⟨h1, h2, _⟩ := hc.unparsable _ hf hd hstat
  exact ⟨h1, by rw [h2, hf]⟩

/-- **C117: a file of zeros is noticed**, as some file systems leave it after a power loss. -/
theorem C117_zeros_refused (cfg : ServerCfg) (senv : StartEnv) (hord : ∀ m, (senv.order m).Perm m) (w w' : World) (o : Out Server) (n : Nat) (f : File)
    (hf : w.fs (blocklistPath cfg.blDir) = some f) (hdat : f.data = List.replicate n 0)
    (h : Server.create cfg senv w = (o, w')) (hstat : .statFailed (blocklistPath cfg.blDir) ∉ w'.log) : (∀ s, o ≠ .ok s) ∧ w'.fs (blocklistPath cfg.blDir) = some f := by
  have hc := created_of_step hord h
  have hd : decodeBl f.data = none := by
    rw [hdat]
    cases n with
    | zero => rfl
    | succ n =>
      rw [List.replicate_succ]
      have h0 : ∀ t, arrHeader 1 (0 :: t) = none := fun t => by simp [arrHeader]
      simp only [decodeBl, h0]
  obtain ⟨h1, h2, _⟩ := hc.unparsable _ hf hd hstat
  exact ⟨h1, by rw [h2, hf]⟩

theorem exists_nonzero {bs : List Byte} (h : ofBE bs ≠ 0) : ∃ a x c, bs = a ++ x :: c ∧ x.toNat ≠ 0 := by
  induction bs with
  | nil => exact absurd rfl h
  | cons y bs ih =>
    by_cases hy : y.toNat = 0
    · rw [ofBE_cons, hy, Nat.zero_mul, Nat.zero_add] at h
      obtain ⟨a, x, c, rfl, hx⟩ := ih h
      exact ⟨y :: a, x, c, rfl, hx⟩
    · exact ⟨[], y, bs, rfl, hy⟩

theorem ofBE_zeroed (a c : List Byte) (x : Byte) (hx : x.toNat ≠ 0) : ofBE (a ++ 0 :: c) < ofBE (a ++ x :: c) := by
  rw [ofBE_append', ofBE_append', ofBE_cons, ofBE_cons]
  have : 0 < 256 ^ c.length := Nat.pow_pos (by decide)
  have : 256 ^ c.length ≤ x.toNat * 256 ^ c.length := Nat.le_mul_of_pos_left _ (by omega)
  simp only [List.length_cons]
  have h0 : (0 : Byte).toNat * 256 ^ c.length = 0 := by rw [show (0 : Byte).toNat = 0 from rfl, Nat.zero_mul]
  omega

/-- One byte set to zero is one counter lowered. -/
theorem zeroed_entry (k : List Byte) (v : U128) (hv : v.toNat ≠ 0) : ∃ j v', j < (encEntry (k, v)).length ∧ v'.toNat < v.toNat ∧ (encEntry (k, v)).set j 0 = encEntry (k, v') := by
  have hb : ofBE (beBytes 16 v.toNat) = v.toNat := by
    rw [ofBE_beBytes]
    exact Nat.mod_eq_of_lt v.isLt
  obtain ⟨a, x, c, hac, hx⟩ := exists_nonzero (bs := beBytes 16 v.toNat) (by rw [hb]; exact hv)
  have hlt := ofBE_zeroed a c x hx
  rw [← hac, hb] at hlt
  have hlen : (a ++ (0 : Byte) :: c).length = 16 := by
    have := congrArg List.length hac
    rw [beBytes_length] at this
    simp at this ⊢
    omega
  have hv' : (BitVec.ofNat 128 (ofBE (a ++ 0 :: c)) : U128).toNat = ofBE (a ++ 0 :: c) := by
    rw [BitVec.toNat_ofNat]
    exact Nat.mod_eq_of_lt (Nat.lt_trans hlt v.isLt)
  refine ⟨(encKey k).length + (2 + a.length), BitVec.ofNat 128 (ofBE (a ++ 0 :: c)), ?_, by rw [hv']; exact hlt, ?_⟩
  · simp only [encEntry, encVal, hac, List.length_append, List.length_cons]
    omega
  · simp only [encEntry, encVal, hv', hac]
    have hback := beBytes_ofBE (a ++ 0 :: c)
    rw [hlen] at hback
    rw [hback, List.set_append_right _ _ (Nat.le_add_right _ _), Nat.add_sub_cancel_left]
    rw [Nat.add_comm 2 a.length, List.set_cons_succ, List.set_cons_succ, List.set_append_right _ _ (Nat.le_refl _), Nat.sub_self, List.set_cons_zero]

/-- **C117 is false: a lowered counter is not noticed.** Whatever replay state was written, and whichever key in it has a counter above zero: there is a byte of the file such that, when it reads as
zero, the file is accepted, with a lower counter for this key and the right ones for all others. -/
theorem C117_unnoticed (l : BlMap) (hwf : l.Wf) (bs : List Byte) (hw : encodeBl l = .ok bs) (k : List Byte) (v : U128) (hk : l.get k = some v) (hv : v.toNat ≠ 0) :
    ∃ i m' v', i < bs.length ∧ decodeBl (bs.set i 0) = some m' ∧ m'.get k = some v' ∧ v'.toNat < v.toNat ∧ ∀ k', k' ≠ k → m'.get k' = l.get k' := by
  obtain ⟨hlen, rfl⟩ := encodeBl_ok hw
  obtain ⟨a, c, rfl⟩ := List.append_of_mem (BlMap.mem_of_get hk)
  obtain ⟨j, v', hj, hlt, hset⟩ := zeroed_entry k v hv
  have hwf' : BlMap.Wf (a ++ (k, v') :: c) := ⟨by have := hwf.nodup; simpa [BlMap.Nodup] using this, by have := hwf.key_length; simpa using this⟩
  have hset2 : ((0x91 : Byte) :: mapHeader (a ++ (k, v) :: c).length ++ (a ++ (k, v) :: c).flatMap encEntry).set (1 + ((mapHeader (a ++ (k, v) :: c).length).length + ((a.flatMap encEntry).length + j))) 0 =
      0x91 :: mapHeader (a ++ (k, v') :: c).length ++ (a ++ (k, v') :: c).flatMap encEntry := by
    rw [List.cons_append, Nat.add_comm 1, List.set_cons_succ, List.set_append_right _ _ (Nat.le_add_right _ _), Nat.add_sub_cancel_left]
    simp only [List.flatMap_append, List.flatMap_cons]
    rw [List.set_append_right _ _ (Nat.le_add_right _ _), Nat.add_sub_cancel_left, List.set_append_left _ _ hj, hset]
    simp
  have henc : encodeBl (a ++ (k, v') :: c) = .ok (0x91 :: mapHeader (a ++ (k, v') :: c).length ++ (a ++ (k, v') :: c).flatMap encEntry) := by
    unfold encodeBl
    refine if_pos ?_
    simpa using hlen
  refine ⟨_, a ++ (k, v') :: c, v', ?_, by rw [hset2]; have := decodeBl_encodeBl hwf' henc []; rwa [List.append_nil] at this, BlMap.get_eq_some_of_mem hwf'.nodup (by simp), hlt, fun k' hk' => ?_⟩
  · simp only [List.cons_append, List.length_cons, List.length_append, List.flatMap_append, List.flatMap_cons]
    omega
  · clear hset2 henc hwf hwf' hk hw hlen
    induction a with
    | nil => simp only [List.nil_append, BlMap.get]; rw [if_neg (Ne.symm hk'), if_neg (Ne.symm hk')]
    | cons e a ih =>
      obtain ⟨ke, ve⟩ := e
      simp only [List.cons_append, BlMap.get]
      split
      · rfl
      · exact ih

/-! ## Concrete case: a request is executed twice -/

/-- A server that executed the request with the counter 5000 and was then stopped. -/
def exDam0 : Sys := [exStart 1000 [], exPacket 5000 1100 [], .kill].foldl (exec toyAead) ⟨exEmpty, none⟩

/-- The same with the last byte of its replay-state file read as zero. -/
def exDam1 : World :=
  { exDam0.w with fs := fun q => if q = blocklistPath "/s".toList then (exDam0.w.fs q).map (fun f => { f with data := f.data.set 28 0 }) else exDam0.w.fs q }

theorem exDam_changed : ByteChanged exDam0.w exDam1 (blocklistPath "/s".toList) 28 0 := by
  obtain ⟨f, hf⟩ : ∃ f, exDam0.w.fs (blocklistPath "/s".toList) = some f := Option.isSome_iff_exists.1 (by decide +kernel)
  have hlen : (exDam0.w.fs (blocklistPath "/s".toList)).all (fun f => decide (28 < f.data.length)) = true := by decide +kernel
  rw [hf] at hlen
  refine ⟨f, hf, of_decide_eq_true hlen, ?_⟩
  show World.mk _ _ _ _ _ _ _ = World.mk _ _ _ _ _ _ _
  congr 1
  funext q
  by_cases hq : q = blocklistPath "/s".toList
  · rw [if_pos hq, if_pos hq, hq, hf]
    rfl
  · rw [if_neg hq, if_neg hq]

/-- The hypotheses of `C117_one_byte_partial` are met by this damage: the file was written for the counter 5000 of the one key. -/
example : (exDam0.w.fs (blocklistPath "/s".toList)).map File.data = (match encodeBl [(exKey.id, 5000)] with | .ok bs => some bs | .error _ => none) := by decide +kernel

/-- **C117: the damage is used.** A server executed a request and was stopped. One byte of its replay-state file reads as zero from then on. It starts, without an error, and executes the same datagram
again. -/
theorem C117_executed_again :
    ∃ (evs evs' : List Ev) (s s' : Sys) (w : World) (i : Nat), Run toyAead "/s".toList ⟨exEmpty, none⟩ evs s ∧ ByteChanged s.w w (blocklistPath "/s".toList) i 0 ∧ Run toyAead "/s".toList ⟨w, none⟩ evs' s' ∧
      .statFailed (blocklistPath "/s".toList) ∉ s'.w.log ∧ (∀ e ∈ evs ++ evs', e ≠ .power) ∧ ∃ dg c bs bs', forwards s'.w.log = [(dg, c, bs), (dg, c, bs')] := by
  refine ⟨[exStart 1000 [], exPacket 5000 1100 [], .kill], [exStart 9000 [], exPacket 5000 9100 []], exDam0, _, exDam1, 28, run_exec _ _ ?_, exDam_changed, run_exec _ _ ?_, ?_, ?_,
    exSealed 5000, 5000, Spec.message exRequest (.v4 0x0a000001), Spec.message exRequest (.v4 0x0a000001), ?_⟩
  · refine ⟨⟨rfl, rfl⟩, ?_, trivial, trivial⟩
    first | rfl | decide +kernel
  · refine ⟨⟨rfl, rfl⟩, ?_, trivial⟩
    first | rfl | decide +kernel
  · decide +kernel
  · intro e he
    simp [exStart, exPacket] at he
    rcases he with rfl | rfl | rfl | rfl | rfl <;> simp
  · decide +kernel

/-- Two keys: the byte with which the second entry's counter starts is changed, and the first key keeps its counter. -/
example : ∃ bs, encodeBl [([1, 2, 3, 4, 5, 6, 7, 200], 5000), ([0, 0, 0, 0, 0, 0, 0, 255], 3)] = .ok bs ∧ ∃ m', decodeBl (bs.set 57 2) = some m' ∧ m'.get [1, 2, 3, 4, 5, 6, 7, 200] = some 5000 ∧
    m'.get [0, 0, 0, 0, 0, 0, 0, 255] = some 2 :=
  ⟨_, rfl, [([1, 2, 3, 4, 5, 6, 7, 200], 5000), ([0, 0, 0, 0, 0, 0, 0, 255], 2)], by decide +kernel, by decide +kernel, by decide +kernel⟩

/-- A changed byte can make the reader fall out of step and into step again, by way of a longer form of a number than the server writes: the entry names another key, and all is accepted. -/
example : ∃ bs, encodeBl [([1, 2, 0xd0, 5, 6, 7, 8, 9], 5000)] = .ok bs ∧ decodeBl (bs.set 5 3) = some [([1, 2, 3, 5, 6, 7, 8, 9], 5000)] := ⟨_, rfl, by decide +kernel⟩

end Ruroco
