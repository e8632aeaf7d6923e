import Verif.BuildingProps

/-!
# Property C78: Finalizing works the edges off in chunks

The edges are reversed, then the last elements are cut off again and again to save memory.
-/

namespace Verif.Build

/-! ## Sizes -/

/-- `src/defaults.rs:35` `MAX_BYTE_PER_CHUNK`. -/
def maxBytes : Nat := 200 * 1000000

/-- `src/network/graph/building.rs:132-146` `ProtoEdge::mem_size_b` for `GRAPH_DIM = dim` on a machine
with 64 bit: an optional `usize` needs 16 byte. -/
def protoEdgeBytes (dim : Nat) : Nat := 16 + 2 * 8 + dim * 8

/-- `src/network/graph/building.rs:103-113` `ProtoShortcut::mem_size_b`. -/
def protoShortcutBytes (dim : Nat) : Nat := protoEdgeBytes dim + 2 * 8

/-- `src/network/graph/building.rs:166-180` `ProtoEdgeB::mem_size_b`. -/
def edgeBBytes (dim : Nat) : Nat := 8 + 16 + 2 * 8 + dim * 8 + 8

/-- `src/network/graph/building.rs:397`: the size of a chunk when ids are replaced. -/
def chunkSizeIds (dim : Nat) : Nat := maxBytes / edgeBBytes dim

/-- `src/network/graph/building.rs:589`: the size of a chunk when metrics are added. -/
def chunkSizeMetrics (dim : Nat) : Nat := maxBytes / protoShortcutBytes dim

/-! ## C78 -/

/-- C78: for every chunk size above zero, the chunks are the edges in their order, none of them
missing or repeated, as soon as there are as many rounds as edges. -/
theorem C78_chunks {α : Type} {c : Nat} (hc : 0 < c) (l : List α) {rounds : Nat}
    (hr : l.length ≤ rounds) : chunked c rounds l.reverse = l :=
  chunked_traversal hc l hr

example : chunked 2 5 [5, 4, 3, 2, 1] = [1, 2, 3, 4, 5] ∧ chunked 2 2 [5, 4, 3, 2, 1] = [1, 2, 3, 4] := by
  decide +kernel

/-- C78: no chunk is larger than allowed: after `rounds` chunks at most `rounds * c` edges have been
worked off, and these are the first ones. -/
theorem C78_bounded {α : Type} (c rounds : Nat) (l : List α) :
    chunked c rounds l.reverse = l.take (rounds * c) := by
  induction rounds generalizing l with
  | zero => simp [chunked]
  | succ n ih =>
    unfold chunked
    by_cases hl : l.length = 0
    · have : l = [] := List.eq_nil_of_length_eq_zero hl
      subst this; simp
    · have hm : l.length - (l.length - min l.length c) = min l.length c := by omega
      simp only [List.length_reverse]
      rw [if_pos (by omega), List.drop_reverse, List.take_reverse, List.reverse_reverse, hm, ih]
      have hlen : (l.take (min l.length c)) = l.take c := by
        rcases Nat.le_total l.length c with h | h
        · rw [Nat.min_eq_left h, List.take_of_length_le h, List.take_of_length_le (le_refl _)]
        · rw [Nat.min_eq_right h]
      have hdrop : (l.drop (min l.length c)) = l.drop c := by
        rcases Nat.le_total l.length c with h | h
        · rw [Nat.min_eq_left h, List.drop_of_length_le h, List.drop_of_length_le (le_refl _)]
        · rw [Nat.min_eq_right h]
      rw [hlen, hdrop, Nat.succ_mul, Nat.add_comm (n * c) c, List.take_add]

/-- C78: the chunk sizes of the code are above zero iff the code has been compiled for a dimension
that is small enough. -/
theorem C78_sizes (dim : Nat) :
    (0 < chunkSizeIds dim ↔ dim ≤ 24999994) ∧ (0 < chunkSizeMetrics dim ↔ dim ≤ 24999994) := by
  unfold chunkSizeIds chunkSizeMetrics maxBytes edgeBBytes protoShortcutBytes protoEdgeBytes
  rw [Nat.div_pos_iff, Nat.div_pos_iff]
  omega

example : chunkSizeIds 6 = 2083333 ∧ chunkSizeMetrics 6 = 2083333 := by decide +kernel

/-- C78, together: the edges are worked off in order and completely for every usable dimension. -/
theorem C78_finalize {α : Type} {dim : Nat} (hd : dim ≤ 24999994) (l : List α) :
    chunked (chunkSizeIds dim) l.length l.reverse = l ∧
    chunked (chunkSizeMetrics dim) l.length l.reverse = l :=
  ⟨C78_chunks ((C78_sizes dim).1.mpr hd) l (le_refl _),
    C78_chunks ((C78_sizes dim).2.mpr hd) l (le_refl _)⟩

/-- C78 fails beyond: with a chunk size of zero, any number of rounds works nothing off, hence the
loop does not end. -/
theorem C78_false_dim {α : Type} (rounds : Nat) (l : List α) :
    chunked (chunkSizeIds 24999995) rounds l.reverse = [] := by
  rw [C78_bounded, show chunkSizeIds 24999995 = 0 by decide +kernel]
  simp

end Verif.Build
