import Verif.FmiProps

/-!
# C49, C50: malformed lines, comments and empty lines
-/

namespace Verif.Fmi

open Cfg Text
open Build (ProtoEdge ProtoNode)
open Gen (Net value)

/-! ## C49 -/

theorem splitTwo_none {p : Text} : splitTwo p = none ↔ ¬ Prefix2 p := by
  have pos : ∀ c : Char, 0 < c.utf8Size := Char.utf8Size_pos
  unfold Prefix2
  cases p with
  | nil =>
    simp only [splitTwo, true_iff, not_exists, not_and]
    intro a b h
    have : a = [] := by
      cases a <;> simp_all
    subst this
    simp
  | cons x t =>
    simp only [splitTwo]
    by_cases h2 : x.utf8Size = 2
    · simp only [h2, if_true, reduceCtorEq, false_iff, not_not]
      exact ⟨[x], t, rfl, by simp [h2]⟩
    · rw [if_neg h2]
      have key : ∀ a b, x :: t = a ++ b → (a.map Char.utf8Size).sum = 2 →
          x.utf8Size = 1 ∧ ∃ y t', t = y :: t' ∧ y.utf8Size = 1 := by
        intro a b hab hs
        cases a with
        | nil => simp at hs
        | cons x' a =>
          simp only [List.cons_append, List.cons.injEq] at hab
          obtain ⟨rfl, hab⟩ := hab
          simp only [List.map_cons, List.sum_cons] at hs
          have := pos x
          refine ⟨?_, ?_⟩
          · omega
          · cases a with
            | nil =>
              simp at hs
              omega
            | cons y a =>
              simp only [List.map_cons, List.sum_cons] at hs
              have := pos y
              exact ⟨y, a ++ b, hab, by omega⟩
      by_cases h1 : x.utf8Size = 1
      · rw [if_pos h1]
        cases t with
        | nil =>
          simp only [true_iff, not_exists, not_and]
          intro a b hab hs
          obtain ⟨-, y, t', h, -⟩ := key a b hab hs
          cases h
        | cons y t =>
          by_cases hy : y.utf8Size = 1
          · simp only [hy, if_true, reduceCtorEq, false_iff, not_not]
            exact ⟨[x, y], t, rfl, by simp [h1, hy]⟩
          · simp only [hy, if_false, true_iff, not_exists, not_and]
            intro a b hab hs
            obtain ⟨-, y', t', h, h3⟩ := key a b hab hs
            cases h
            exact hy h3
      · simp only [h1, if_false, true_iff, not_exists, not_and]
        intro a b hab hs
        exact h1 (key a b hab hs).1

theorem readEdgeId_panic {p : Text} : readEdgeId p = .panic ↔ parseNat maxUsize p = none ∧ ¬ Prefix2 p := by
  unfold readEdgeId
  rw [← splitTwo_none]
  cases h : parseNat maxUsize p with
  | some id => simp
  | none =>
    cases h2 : splitTwo p with
    | none => simp
    | some ab =>
      obtain ⟨a, b⟩ := ab
      simp only [reduceCtorEq, and_false, iff_false]
      split
      · split <;> simp
      · simp

theorem bind_eq_panic {ε α β : Type} {r : Res ε α} {f : α → Res ε β} :
    (r >>= f) = .panic ↔ r = .panic ∨ ∃ a, r = .ok a ∧ f a = .panic := by
  cases r <;> simp

/-- Only an edge's id panics. -/
theorem readColumn_panic {c : Codec} {a : EdgeAcc} {p : Text} {cat : EdgeCat}
    (h : readColumn c a p cat = .panic) :
    (∃ id, cat = .info .edgeId id) ∧ parseNat maxUsize p = none ∧ ¬ Prefix2 p := by
  have hend : ∀ o : Option Int, readEnd o p ≠ .panic := by
    intro o
    unfold readEnd
    split
    · split <;> simp
    · simp
  have hsc : ∀ o : Option Nat, readShortcut o p ≠ .panic := by
    intro o
    unfold readShortcut
    split
    · simp
    · split
      · simp
      · split <;> simp
  cases cat with
  | ignored => cases h
  | metric u id =>
    simp only [readColumn] at h
    split at h <;> cases h
  | info i id =>
    cases i <;> simp only [readColumn, bind_eq_panic, Res.pure_eq, reduceCtorEq, and_false, exists_false, or_false,
      hend, hsc] at h
    exact ⟨⟨id, rfl⟩, readEdgeId_panic.mp h⟩

theorem readColumns_panic {c : Codec} : ∀ (cats : List EdgeCat) (params : List Text) (a : EdgeAcc),
    readColumns c a params cats = .panic →
    ∃ (j : Nat) (id p : Text), cats[j]? = some (.info .edgeId id) ∧ params[j]? = some p ∧
      parseNat maxUsize p = none ∧ ¬ Prefix2 p
  | [], _, _, h => by simp [readColumns] at h
  | _ :: _, [], _, h => by simp [readColumns] at h
  | cat :: cats, p :: params, a, h => by
    simp only [readColumns, bind_eq_panic] at h
    rcases h with h | ⟨a', -, h⟩
    · obtain ⟨⟨id, rfl⟩, h1, h2⟩ := readColumn_panic h
      exact ⟨0, id, p, rfl, rfl, h1, h2⟩
    · obtain ⟨j, id, p', h1, h2, h3⟩ := readColumns_panic cats params a' h
      exact ⟨j + 1, id, p', h1, h2, h3⟩

/-- C49 for edges, except for ids: parsing the line of an edge panics only because of an edge-id that is no number
and can't be split behind its second byte. -/
theorem C49_edge_partial {c : Codec} {cats : List EdgeCat} {line : Text} (h : readEdge c cats line = .panic) :
    ∃ (j : Nat) (id p : Text), cats[j]? = some (.info .edgeId id) ∧ (words line)[j]? = some p ∧
      parseNat maxUsize p = none ∧ ¬ Prefix2 p := by
  simp only [readEdge, bind_eq_panic] at h
  rcases h with h | ⟨a, -, h⟩
  · exact readColumns_panic _ _ _ h
  · split at h
    · cases h
    · split at h <;> cases h

/-- C49: and such an edge-id in the first column does panic. -/
theorem C49_edge_panics {c : Codec} {cats : List EdgeCat} {line id p : Text} {ps : List Text}
    (hw : words line = p :: ps) (h1 : parseNat maxUsize p = none) (h2 : ¬ Prefix2 p) :
    readEdge c (.info .edgeId id :: cats) line = .panic := by
  simp only [readEdge, hw, readColumns, readColumn, readEdgeId_panic.mpr ⟨h1, h2⟩, Res.panic_bind]

/-- C49: a line whose edge-ids all have two ASCII characters or more is never a reason to panic. -/
theorem C49_edge_ascii {c : Codec} {cats : List EdgeCat} {line : Text}
    (h : ∀ p ∈ words line, ∃ x y t, p = x :: y :: t ∧ x.utf8Size = 1 ∧ y.utf8Size = 1) :
    readEdge c cats line ≠ .panic := by
  intro hp
  obtain ⟨j, id, p, -, h2, -, h3⟩ := C49_edge_partial hp
  obtain ⟨x, y, t, rfl, hx, hy⟩ := h p (List.mem_of_getElem? h2)
  exact h3 ⟨[x, y], t, rfl, by simp [hx, hy]⟩

example : readEdge exCodec exEdgeCats "ch9 10 oops 4/1 -1 -1".toList ≠ .panic :=
  C49_edge_ascii (by
    have : words "ch9 10 oops 4/1 -1 -1".toList =
      ["ch9".toList, "10".toList, "oops".toList, "4/1".toList, "-1".toList, "-1".toList] := by decide +kernel
    rw [this]
    intro p hp
    simp only [List.mem_cons, List.not_mem_nil, or_false] at hp
    rcases hp with rfl | rfl | rfl | rfl | rfl | rfl
    all_goals exact ⟨_, _, _, rfl, by decide, by decide⟩)

/-- C49 is false for edges: an edge-id of one letter crashes the parser. -/
theorem C49_false_edge_id : readEdge exCodec exEdgeCats "x 10 30 4/1 -1 -1".toList = .panic :=
  C49_edge_panics (p := "x".toList) (ps := ["10".toList, "30".toList, "4/1".toList, "-1".toList, "-1".toList])
    (by decide +kernel) (by decide +kernel) (by
      rw [← splitTwo_none]
      decide +kernel)

/-- C49: the same for an edge-id whose second byte is inside of a letter. -/
theorem C49_false_edge_utf8 : readEdge exCodec exEdgeCats "aä 10 30 4/1 -1 -1".toList = .panic := by decide +kernel

theorem readNodeColumns_panic {c : Codec} {all : List Text} : ∀ (cats : List NodeCat) (params : List Text)
    (a : NodeAcc), readNodeColumns c all a params cats = .panic →
    ∃ (j : Nat) (id p : Text), params[j]? = some p ∧ c.parseF p = none ∧
      ((cats[j]? = some (.metric .latitude id) ∧ all.length ≤ 2) ∨
        (cats[j]? = some (.metric .longitude id) ∧ all.length ≤ 3))
  | [], _, _, h => by simp [readNodeColumns] at h
  | _ :: _, [], _, h => by simp [readNodeColumns] at h
  | cat :: cats, p :: params, a, h => by
    simp only [readNodeColumns, bind_eq_panic] at h
    rcases h with h | ⟨a', -, h⟩
    · cases cat with
      | ignored => cases h
      | info i id =>
        cases i <;> simp only [readNodeColumn] at h
        · split at h <;> cases h
        · cases h
        · split at h <;> cases h
      | metric u id =>
        cases u <;> simp only [readNodeColumn] at h
        · split at h
          · cases h
          · rename_i hp
            split at h
            · cases h
            · exact ⟨0, id, p, rfl, hp, .inl ⟨rfl, by omega⟩⟩
        · split at h
          · cases h
          · rename_i hp
            split at h
            · cases h
            · exact ⟨0, id, p, rfl, hp, .inr ⟨rfl, by omega⟩⟩
        · cases h
    · obtain ⟨j, id, p', h1, h2, h3⟩ := readNodeColumns_panic cats params a' h
      exact ⟨j + 1, id, p', h1, h2, h3⟩

/-- C49 for nodes, except for coordinates: parsing the line of a node panics only because of a latitude (longitude)
that is no number in a line with at most two (three) words. -/
theorem C49_node_partial {c : Codec} {cats : List NodeCat} {line : Text} (h : readNode c cats line = .panic) :
    ∃ (j : Nat) (id p : Text), (words line)[j]? = some p ∧ c.parseF p = none ∧
      ((cats[j]? = some (.metric .latitude id) ∧ (words line).length ≤ 2) ∨
        (cats[j]? = some (.metric .longitude id) ∧ (words line).length ≤ 3)) := by
  simp only [readNode, bind_eq_panic] at h
  rcases h with h | ⟨a, -, h⟩
  · exact readNodeColumns_panic _ _ _ h
  · split at h
    · cases h
    · split at h <;> cases h

/-- C49: lines of nodes with four words never panic. -/
theorem C49_node_long {c : Codec} {cats : List NodeCat} {line : Text} (h : 4 ≤ (words line).length) :
    readNode c cats line ≠ .panic := by
  intro hp
  obtain ⟨j, id, p, -, -, ⟨-, h3⟩ | ⟨-, h3⟩⟩ := C49_node_partial hp <;> omega

example : readNode exCodec exNodeCats "10 north west 1".toList = .err .number ∧
    readNode exCodec exNodeCats "10 north west 1".toList ≠ .panic :=
  ⟨by decide +kernel, C49_node_long (by decide +kernel)⟩

/-- C49 is false for nodes: a malformed longitude at the end of a line with three words crashes the parser. -/
theorem C49_false_node : readNode exCodec [.info .nodeId "id".toList, .metric .latitude "lat".toList,
    .metric .longitude "lon".toList] "10 5/1 west".toList = .panic := by decide +kernel

theorem mapR_panic {ε α β : Type} {f : α → Res ε β} {l : List α} (h : mapR f l = .panic) :
    ∃ a ∈ l, f a = .panic := by
  induction l with
  | nil => cases h
  | cons a l ih =>
    simp only [mapR, bind_eq_panic, Res.pure_eq, reduceCtorEq, and_false, exists_false, or_false] at h
    rcases h with h | ⟨b, -, h⟩
    · exact ⟨a, by simp, h⟩
    · obtain ⟨x, hx, h⟩ := ih h
      exact ⟨x, by simp [hx], h⟩

theorem inRange_sub {lo hi n : Nat} {l : List Text} : ∀ x ∈ inRange lo hi n l, x ∈ l := by
  induction l generalizing n with
  | nil => simp [inRange]
  | cons a l ih =>
    intro x hx
    simp only [inRange] at hx
    split at hx
    · rcases List.mem_cons.mp hx with rfl | h
      · simp
      · exact List.mem_cons_of_mem _ (ih x h)
    · exact List.mem_cons_of_mem _ (ih x hx)

/-- C49: reading a whole file panics only because of such a line of an edge or node. -/
theorem C49_read_partial {c : Codec} {maxDim : Nat} {cfg : Parsing} {file : List Text}
    (h : read c maxDim cfg file = .panic) : ∃ line ∈ file, line ≠ [] ∧ ¬ IsComment line ∧
      ∃ (j : Nat) (id p : Text), (words line)[j]? = some p ∧
        ((cfg.edges.cats[j]? = some (.info .edgeId id) ∧ parseNat maxUsize p = none ∧ ¬ Prefix2 p) ∨
          (cfg.nodes[j]? = some (.metric .latitude id) ∧ c.parseF p = none ∧ (words line).length ≤ 2) ∨
          (cfg.nodes[j]? = some (.metric .longitude id) ∧ c.parseF p = none ∧ (words line).length ≤ 3)) := by
  have hf : ∀ line ∈ file.filter isFunctional, line ∈ file ∧ line ≠ [] ∧ ¬ IsComment line := by
    intro line hl
    rw [functional_eq, functional, List.mem_filter, decide_eq_true_iff] at hl
    exact hl
  unfold read at h
  split at h
  · cases h
  · dsimp only at h
    split at h
    · simp only [bind_eq_panic, Res.pure_eq, reduceCtorEq, and_false, exists_false, or_false] at h
      rcases h with h | ⟨es, -, h⟩
      · obtain ⟨line, hl, h⟩ := mapR_panic h
        obtain ⟨h1, h2, h3⟩ := hf line (inRange_sub line hl)
        obtain ⟨j, id, p, k1, k2, k3⟩ := C49_edge_partial h
        exact ⟨line, h1, h2, h3, j, id, p, k2, .inl ⟨k1, k3⟩⟩
      · obtain ⟨line, hl, h⟩ := mapR_panic h
        obtain ⟨h1, h2, h3⟩ := hf line (inRange_sub line hl)
        obtain ⟨j, id, p, k1, k2, ⟨k3, k4⟩ | ⟨k3, k4⟩⟩ := C49_node_partial h
        · exact ⟨line, h1, h2, h3, j, id, p, k1, .inr (.inl ⟨k3, k2, k4⟩)⟩
        · exact ⟨line, h1, h2, h3, j, id, p, k1, .inr (.inr ⟨k3, k2, k4⟩)⟩
    · cases h

/-- C49: reading never panics if there is no column for edge-ids, latitudes aren't in the first two columns and
longitudes aren't in the first three. -/
theorem C49_read_safe {c : Codec} {maxDim : Nat} {cfg : Parsing} (file : List Text)
    (he : ∀ id, .info .edgeId id ∉ cfg.edges.cats)
    (hlat : ∀ (j : Nat) (id : Text), cfg.nodes[j]? = some (.metric .latitude id) → 2 ≤ j)
    (hlon : ∀ (j : Nat) (id : Text), cfg.nodes[j]? = some (.metric .longitude id) → 3 ≤ j) :
    read c maxDim cfg file ≠ .panic := by
  intro h
  obtain ⟨line, -, -, -, j, id, p, hp, h⟩ := C49_read_partial h
  have hl := Gen.lt_of_some hp
  rcases h with ⟨h, -⟩ | ⟨h, -, h2⟩ | ⟨h, -, h2⟩
  · exact he id (List.mem_of_getElem? h)
  · have := hlat j id h
    omega
  · have := hlon j id h
    omega

/-- The sample without edge-ids and with the coordinates at the end. -/
def safeParsing : Parsing :=
  { exParsing with
    nodes := [.info .nodeId "node".toList, .info .chLevel "level".toList, .metric .latitude "lat".toList,
      .metric .longitude "lon".toList]
    edges := liftNet.edges }

example (file : List Text) : read exCodec 2 safeParsing file ≠ .panic := by
  refine C49_read_safe file ?_ ?_ ?_
  · intro id
    simp [safeParsing, liftNet]
  · intro j id h
    rcases j with _ | _ | j
    · cases h
    · cases h
    · omega
  · intro j id h
    rcases j with _ | _ | _ | j
    · cases h
    · cases h
    · cases h
    · omega

/-! ## C50 -/

/-- C50: only the lines that are neither empty nor comments matter. -/
theorem C50_fmi (c : Codec) (maxDim : Nat) (cfg : Parsing) {file file' : List Text}
    (h : functional file = functional file') : read c maxDim cfg file = read c maxDim cfg file' := by
  unfold read
  rw [functional_eq, functional_eq, h]

theorem functional_insert {a b : List Text} {line : Text} (h : line = [] ∨ IsComment line) :
    functional (a ++ line :: b) = functional (a ++ b) := by
  unfold functional
  rw [List.filter_append, List.filter_append, List.filter_cons_of_neg]
  rcases h with rfl | h
  · simp
  · unfold IsComment at h
    simp [h]

/-- C50: a map is loaded equally with a comment or an empty line more or less, wherever it is. -/
theorem C50_fmi_insert (c : Codec) (env : Gen.Env) (maxDim : Nat) (cfg : Parsing) (a b : List Text) {line : Text}
    (h : line = [] ∨ IsComment line) :
    load c env maxDim cfg (a ++ line :: b) = load c env maxDim cfg (a ++ b) := by
  unfold load
  rw [C50_fmi c maxDim cfg (functional_insert h)]

/-- C50: the same for files that are merged into the metrics. -/
theorem C50_merge (header : Bool) (a b : List Text) {line : Text} (h : line = [] ∨ IsComment line) :
    Gen.readLines (some (a ++ line :: b)) header = Gen.readLines (some (a ++ b)) header := by
  unfold Gen.readLines
  simp only [functional_eq, functional_insert h]

example (env : Gen.Env) : load exCodec env 2 exParsing (exFile.take 9 ++ "# comment".toList :: exFile.drop 9) =
    load exCodec env 2 exParsing (exFile.take 9 ++ exFile.drop 9) :=
  C50_fmi_insert exCodec env 2 exParsing _ _ (.inr rfl)

example : Gen.readLines (some (["id km".toList] ++ "#".toList :: ["5 1".toList])) true = .ok ["5 1".toList] := by
  rw [C50_merge true _ _ (line := "#".toList) (.inr rfl)]
  decide +kernel

/-- C50 is false for lines of white space only: such a line after the counts is taken for a line of
a node, and the last node for an edge. -/
theorem C50_false_blank :
    (∃ es ns, read exCodec 2 exParsing exFile = .ok (es, ns) ∧ es.length = 4 ∧ ns.length = 3) ∧
    read exCodec 2 exParsing (exFile.take 10 ++ " ".toList :: exFile.drop 10) = .err .number := by
  refine ⟨?_, by decide +kernel⟩
  obtain ⟨es, ns, h1, h2, h3⟩ := C28_reads (cfg := exParsing) (maxDim := 2) exNet_wellFormed (exNet_printable false)
    (by decide +kernel) exNet_edgeCols exNet_nodeCols
    (fits_self (by intro a; cases a <;> simp [EdgeCat.id?]) (by decide +kernel))
    (fits_self (by intro a; cases a <;> simp [idOfNode]) (by decide +kernel)) (by decide +kernel) exFile_written
  exact ⟨es, ns, h1, by rw [← h2.length_eq]; decide +kernel, by rw [← h3.length_eq]; decide +kernel⟩

end Verif.Fmi
