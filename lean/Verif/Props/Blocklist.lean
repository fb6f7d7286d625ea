import Verif.Lemmas.Blocklist

/-!
# C52: replay-state file format
-/

namespace Ruroco

/-- **C52a.** For every set of distinct 8-byte key ids with counters (fewer than 2^32 of them), written in any iteration order
`l` of the hash map: the file is read back as a map giving exactly the same counter for every key (and none for the others). -/
theorem C52_replay_file_round_trip (m l : BlMap) (hkeys : (m.map Prod.fst).Nodup) (hlen : ∀ e ∈ m, e.1.length = 8)
    (hsize : m.length < 2 ^ 32) (horder : l.Perm m) :
    ∃ bytes m', encodeBl l = .ok bytes ∧ decodeBl bytes = some m' ∧ ∀ k, m'.get k = m.get k := by
  have hwf : m.Wf := ⟨hkeys, fun k hk => by
    obtain ⟨e, he, rfl⟩ := List.mem_map.1 hk
    exact hlen e he⟩
  have hl : l.length < 2 ^ 32 := by rw [horder.length_eq]; exact hsize
  refine ⟨_, l, by rw [encodeBl, if_pos hl], ?_, BlMap.get_perm horder hwf.nodup⟩
  have := decodeBl_encodeBl (hwf.perm horder) (bs := 0x91 :: mapHeader l.length ++ l.flatMap encEntry)
    (by rw [encodeBl, if_pos hl]) []
  rwa [List.append_nil] at this

/-- **C52b.** A truncated replay-state file (cut at any byte) is refused, never read as fewer or other counters. -/
theorem C52_truncated_file_refused (m : BlMap) (hkeys : (m.map Prod.fst).Nodup) (hlen : ∀ e ∈ m, e.1.length = 8)
    (bytes : List Byte) (h : encodeBl m = .ok bytes) (n : Nat) (hn : n < bytes.length) : decodeBl (bytes.take n) = none := by
  have hwf : m.Wf := ⟨hkeys, fun k hk => by
    obtain ⟨e, he, rfl⟩ := List.mem_map.1 hk
    exact hlen e he⟩
  refine decodeBl_truncated hwf h (List.take_append_drop n bytes).symm ?_
  intro hd
  have := congrArg List.length hd
  simp at this; omega

/-- **C52c.** Whatever bytes are accepted, the result has distinct key ids of 8 bytes. -/
theorem C52_accepted_is_well_formed (bytes : List Byte) (m : BlMap) (h : decodeBl bytes = some m) :
    (m.map Prod.fst).Nodup ∧ ∀ e ∈ m, e.1.length = 8 :=
  ⟨(decodeBl_wf h).nodup, fun e he => (decodeBl_wf h).key_length _ (List.mem_map.2 ⟨e, he, rfl⟩)⟩

/-- Non-vacuity: two keys with a large and a small counter, bytes above and below 128. -/
example : ∃ bytes, encodeBl [([1, 2, 3, 4, 5, 6, 7, 200], 1763290000000000000), ([0, 0, 0, 0, 0, 0, 0, 255], 3)] = .ok bytes ∧
    bytes.length = 2 + 2 * (1 + 9 + 18) ∧
    decodeBl bytes = some [([1, 2, 3, 4, 5, 6, 7, 200], 1763290000000000000), ([0, 0, 0, 0, 0, 0, 0, 255], 3)] :=
  ⟨_, rfl, by decide +kernel, by decide +kernel⟩

end Ruroco
