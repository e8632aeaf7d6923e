import Verif.CyclicSpec
import Verif.FlattenProps
import Verif.BuildingProps

/-!
# When flattening never ends (C22)
-/

namespace Verif.Path

open Graph

theorem piles_of_sets {g : Graph} {e d : Nat} (h : SetsAside g e d) (hd : 0 < d) : Piles g e d := by
  induction h with
  | plain => omega
  | @shortcut e a b m n h1 ha hb iha ihb =>
    by_cases hmn : m + 1 ≥ n
    · rw [max_eq_left hmn]
      by_cases hm : 0 < m
      · exact .first h1 (iha hm)
      · obtain rfl : m = 0 := by omega
        exact .second h1
    · rw [max_eq_right (by omega)]
      obtain ⟨l, hl⟩ := expands_of_sets ha
      exact .later h1 hl (ihb (by omega))

/-- Too many edges are noticed. -/
theorem flatGo_piles {g : Graph} (hm : ∀ e, g.scEdgesOf e = .ok none → e < g.metrics.length) {e n : Nat}
    (h : Piles g e n) : ∀ stack, g.edgeCount < stack.length + n → ∃ k, ∀ fuel out costs,
      flatGo g (fuel + k) (some e) stack out costs = some (.err .cycle) := by
  induction h with
  | @second e a b h1 =>
    intro stack hs
    refine ⟨1, fun fuel out costs => ?_⟩
    have : g.edgeCount < stack.length + 1 := by omega
    simp [flatGo, h1, this]
  | @first e a b n h1 _ ih =>
    intro stack hs
    obtain ⟨k, hk⟩ := ih (b :: stack) (by rw [List.length_cons]; omega)
    refine ⟨k + 1, fun fuel out costs => ?_⟩
    rw [← Nat.add_assoc]
    simp only [flatGo, h1, hk, ite_self]
  | @later e a b n l h1 ha _ ih =>
    intro stack hs
    obtain ⟨k, hk⟩ := ih stack hs
    obtain ⟨d, hd⟩ := sets_of_expands ha
    obtain ⟨k', l', hk'⟩ := flatGo_sets hd hm
    refine ⟨k + 1 + k' + 1, fun fuel out costs => ?_⟩
    obtain ⟨c1, c2⟩ := hk' (fuel + k + 1) (b :: stack) out costs
    have e1 : flatGo g (fuel + k + 1 + k') (some a) (b :: stack) out costs = some (.err .cycle) := by
      by_cases hc : d = 0 ∨ (b :: stack).length + d ≤ g.edgeCount
      · rw [c1 hc]
        exact hk _ _ _
      · exact c2 hc
    rw [show fuel + (k + 1 + k' + 1) = fuel + k + 1 + k' + 1 by omega]
    simp only [flatGo, h1, e1, ite_self]

/-- Without too many edges, a cyclic edge is never replaced completely. -/
theorem flatGo_cyclic {g : Graph} (hm : ∀ e, g.scEdgesOf e = .ok none → e < g.metrics.length)
    (hs : ∀ e, e < g.edgeCount → ∃ o, g.scEdgesOf e = .ok o)
    (hr : ∀ e a b, g.scEdgesOf e = .ok (some (a, b)) → a < g.edgeCount ∧ b < g.edgeCount) :
    ∀ N fuel, fuel ≤ N → ∀ e stack out costs, e < g.edgeCount → Cyclic g e →
      (∀ n, Piles g e n → stack.length + n ≤ g.edgeCount) → flatGo g fuel (some e) stack out costs = none := by
  intro N
  induction N with
  | zero =>
    intro fuel hf e stack out costs _ _ _
    obtain rfl : fuel = 0 := by omega
    rfl
  | succ N ih =>
    intro fuel hf e stack out costs he hc hp
    cases fuel with
    | zero => rfl
    | succ fuel =>
      obtain ⟨o, ho⟩ := hs e he
      cases o with
      | none => exact absurd (.plain ho) (hc _)
      | some ab =>
        obtain ⟨a, b⟩ := ab
        obtain ⟨ha, hb⟩ := hr e a b ho
        have h1 := hp 1 (.second ho)
        have h2 : flatGo g (fuel + 1) (some e) stack out costs = flatGo g fuel (some a) (b :: stack) out costs := by
          have : ¬ g.edgeCount < stack.length + 1 := by omega
          simp [flatGo, ho, this]
        rw [h2]
        by_cases hca : Cyclic g a
        · refine ih fuel (by omega) a (b :: stack) out costs ha hca fun n hn => ?_
          have := hp (n + 1) (.first ho hn)
          rw [List.length_cons]
          omega
        · unfold Cyclic at hca
          push Not at hca
          obtain ⟨la, hla⟩ := hca
          obtain ⟨d, hd⟩ := sets_of_expands hla
          obtain ⟨k, l, hk⟩ := flatGo_sets hd hm
          have hfit : d = 0 ∨ (b :: stack).length + d ≤ g.edgeCount := by
            by_cases h0 : d = 0
            · exact .inl h0
            · right
              have := hp (d + 1) (.first ho (piles_of_sets hd (by omega)))
              rw [List.length_cons]
              omega
          have h3 := (hk fuel (b :: stack) out costs).1 hfit
          have h4 : flatGo g fuel none (b :: stack) (out ++ l) (addAll g costs l) = none := by
            cases fuel with
            | zero => rfl
            | succ fuel =>
              show flatGo g fuel (some b) stack (out ++ l) (addAll g costs l) = none
              refine ih fuel (by omega) b stack _ _ hb (fun lb hlb => hc _ (.shortcut ho hla hlb)) fun n hn => ?_
              exact hp n (.later ho hla hn)
          cases hx : flatGo g fuel (some a) (b :: stack) out costs with
          | none => rfl
          | some r =>
            have := flatGo_mono _ _ _ _ _ hx k
            rw [h3, h4] at this
            cases this

/-- The three outcomes for the edges of a path. -/
theorem flatGo_outcome {g : Graph} (hm : ∀ e, g.scEdgesOf e = .ok none → e < g.metrics.length)
    (hs : ∀ e, e < g.edgeCount → ∃ o, g.scEdgesOf e = .ok o)
    (hr : ∀ e a b, g.scEdgesOf e = .ok (some (a, b)) → a < g.edgeCount ∧ b < g.edgeCount) (es : List Nat)
    (he : ∀ e ∈ es, e < g.edgeCount) :
    (Overfull g es → ∃ k, ∀ out costs, flatGo g k none es out costs = some (.err .cycle)) ∧
    (¬ Overfull g es → (∃ e ∈ es, Cyclic g e) → ∀ fuel out costs, flatGo g fuel none es out costs = none) ∧
    (¬ Overfull g es → (¬ ∃ e ∈ es, Cyclic g e) → ∃ k, ∀ out costs, ∃ r, flatGo g k none es out costs = some (.ok r)) := by
  induction es with
  | nil =>
    refine ⟨?_, ?_, fun _ _ => ⟨1, fun out costs => ⟨_, rfl⟩⟩⟩
    · rintro ⟨done, e, rest, n, h, -⟩
      simp at h
    · rintro - ⟨e, he, -⟩
      simp at he
  | cons e es ih =>
    obtain ⟨i1, i2, i3⟩ := ih fun x hx => he x (List.mem_cons_of_mem _ hx)
    have he0 := he e List.mem_cons_self
    by_cases hp : ∃ n, Piles g e n ∧ g.edgeCount < es.length + n
    · obtain ⟨n, hn, hlt⟩ := hp
      have hO : Overfull g (e :: es) := ⟨[], e, es, n, rfl, by simp, hn, hlt⟩
      obtain ⟨k, hk⟩ := flatGo_piles hm hn es hlt
      refine ⟨fun _ => ⟨0 + k + 1, fun out costs => hk 0 out costs⟩, fun h => absurd hO h, fun h => absurd hO h⟩
    · push Not at hp
      by_cases hc : Cyclic g e
      · refine ⟨?_, ?_, fun _ h => absurd ⟨e, by simp, hc⟩ h⟩
        · rintro ⟨done, x, rest, n, h1, h2, h3, h4⟩
          cases done with
          | nil =>
            rw [List.nil_append, List.cons.injEq] at h1
            obtain ⟨rfl, rfl⟩ := h1
            exact absurd h4 (not_lt.mpr (hp n h3))
          | cons y done =>
            rw [List.cons_append, List.cons.injEq] at h1
            obtain ⟨rfl, -⟩ := h1
            obtain ⟨l, hl⟩ := h2 e (by simp)
            exact absurd hl (hc l)
        · intro _ _ fuel out costs
          cases fuel with
          | zero => rfl
          | succ fuel => exact flatGo_cyclic hm hs hr fuel fuel le_rfl e es out costs he0 hc hp
      · have hc' := hc
        unfold Cyclic at hc
        push Not at hc
        obtain ⟨le, hle⟩ := hc
        have hO : Overfull g (e :: es) ↔ Overfull g es := by
          constructor
          · rintro ⟨done, x, rest, n, h1, h2, h3, h4⟩
            cases done with
            | nil =>
              rw [List.nil_append, List.cons.injEq] at h1
              obtain ⟨rfl, rfl⟩ := h1
              exact absurd h4 (not_lt.mpr (hp n h3))
            | cons y done =>
              rw [List.cons_append, List.cons.injEq] at h1
              exact ⟨done, x, rest, n, h1.2, fun z hz => h2 z (List.mem_cons_of_mem _ hz), h3, h4⟩
          · rintro ⟨done, x, rest, n, h1, h2, h3, h4⟩
            refine ⟨e :: done, x, rest, n, by rw [h1]; rfl, ?_, h3, h4⟩
            intro z hz
            rcases List.mem_cons.mp hz with rfl | hz
            · exact ⟨le, hle⟩
            · exact h2 z hz
        have hD : (∃ x ∈ e :: es, Cyclic g x) ↔ ∃ x ∈ es, Cyclic g x := by
          simp [hc']
        rw [hO, hD]
        obtain ⟨d, hd⟩ := sets_of_expands hle
        obtain ⟨k, l, hk⟩ := flatGo_sets hd hm
        have hfit : d = 0 ∨ es.length + d ≤ g.edgeCount := by
          by_cases h0 : d = 0
          · exact .inl h0
          · exact .inr (hp d (piles_of_sets hd (by omega)))
        have hstep : ∀ fuel out costs, flatGo g (fuel + k + 1) none (e :: es) out costs =
            flatGo g fuel none es (out ++ l) (addAll g costs l) := fun fuel out costs =>
          (hk fuel es out costs).1 hfit
        refine ⟨fun h => ?_, fun h1 h2 fuel out costs => ?_, fun h1 h2 => ?_⟩
        · obtain ⟨k', hk'⟩ := i1 h
          exact ⟨k' + k + 1, fun out costs => by rw [hstep, hk']⟩
        · cases hx : flatGo g fuel none (e :: es) out costs with
          | none => rfl
          | some r =>
            have := flatGo_mono _ _ _ _ _ hx (k + 1)
            rw [← Nat.add_assoc, hstep, i2 h1 h2] at this
            cases this
        · obtain ⟨k', hk'⟩ := i3 h1 h2
          exact ⟨k' + k + 1, fun out costs => by rw [hstep]; exact hk' _ _⟩

/-- C22: what flattening does on any graph that has been built and for any path, be its shortcuts cyclic or not. It
returns the error about cycles exactly if more edges are waiting at some time than the graph has, it succeeds exactly if
this doesn't happen and no edge is cyclic, and otherwise, it never ends. -/
theorem C22_outcome {dim : Nat} {es : List Build.ProtoEdge} {ns : List Build.ProtoNode} {g : Graph}
    (hb : Build.build dim es ns = .ok g) {p : Path} (he : ∀ e ∈ p.edges, e < g.edgeCount) :
    ((∃ fuel, tryFlatten g fuel p = some (.err .cycle)) ↔ Overfull g p.edges) ∧
    ((∀ fuel, tryFlatten g fuel p = none) ↔ ¬ Overfull g p.edges ∧ ∃ e ∈ p.edges, Cyclic g e) ∧
    ((∃ fuel q, tryFlatten g fuel p = some (.ok q)) ↔ ¬ Overfull g p.edges ∧ ¬ ∃ e ∈ p.edges, Cyclic g e) := by
  have hwf := Build.built_wellFormed hb
  obtain ⟨h1, h2, h3⟩ := flatGo_outcome (g := g)
    (fun e h => by rw [hwf.metrics_len]; exact hwf.sc_len _ _ h)
    (fun e h => by
      obtain ⟨rep, hrep, -⟩ := Build.C09_representatives hb
      obtain ⟨i, pe, -, -, -, hsc⟩ := hrep e h
      exact ⟨_, hsc⟩)
    (fun e a b h => Build.C09_in_range hb h) p.edges he
  have t1 : Overfull g p.edges → ∃ fuel, tryFlatten g fuel p = some (.err .cycle) := fun h => by
    obtain ⟨k, hk⟩ := h1 h
    exact ⟨k, by unfold tryFlatten; rw [hk]; rfl⟩
  have t2 : ¬ Overfull g p.edges → (∃ e ∈ p.edges, Cyclic g e) → ∀ fuel, tryFlatten g fuel p = none := fun h h' fuel => by
    unfold tryFlatten
    rw [h2 h h']
    rfl
  have t3 : ¬ Overfull g p.edges → (¬ ∃ e ∈ p.edges, Cyclic g e) → ∃ fuel q, tryFlatten g fuel p = some (.ok q) :=
    fun h h' => by
      obtain ⟨k, hk⟩ := h3 h h'
      obtain ⟨r, hr⟩ := hk [] (List.replicate g.dim 0)
      exact ⟨k, _, tryFlatten_ok_iff.mpr ⟨_, _, hr, rfl⟩⟩
  have uniq : ∀ {f1 f2 r1 r2}, tryFlatten g f1 p = some r1 → tryFlatten g f2 p = some r2 → r1 = r2 := by
    intro f1 f2 r1 r2 e1 e2
    have a1 := tryFlatten_mono e1 f2
    have a2 := tryFlatten_mono e2 f1
    rw [Nat.add_comm, a2] at a1
    exact (Option.some.inj a1).symm
  refine ⟨⟨fun h => ?_, t1⟩, ⟨fun h => ?_, fun h => t2 h.1 h.2⟩, ⟨fun h => ?_, fun h => t3 h.1 h.2⟩⟩
  · obtain ⟨fuel, h⟩ := h
    by_contra hO
    by_cases hc : ∃ e ∈ p.edges, Cyclic g e
    · rw [t2 hO hc] at h
      cases h
    · obtain ⟨f', q, hq⟩ := t3 hO hc
      cases uniq h hq
  · have hO : ¬ Overfull g p.edges := fun hO => by
      obtain ⟨f, hf⟩ := t1 hO
      rw [h] at hf
      cases hf
    refine ⟨hO, ?_⟩
    by_contra hc
    obtain ⟨f, q, hq⟩ := t3 hO hc
    rw [h] at hq
    cases hq
  · obtain ⟨fuel, q, h⟩ := h
    have hO : ¬ Overfull g p.edges := fun hO => by
      obtain ⟨f, hf⟩ := t1 hO
      cases uniq h hf
    refine ⟨hO, fun hc => ?_⟩
    rw [t2 hO hc] at h
    cases h

/-- C22: in particular, a cycle is noticed if the way through it passes first edges again and again. Here, `P` are edges
of cycles, and `rank` counts how many second edges follow until the next first edge. -/
theorem C22_first_again {dim : Nat} {es : List Build.ProtoEdge} {ns : List Build.ProtoNode} {g : Graph}
    (hb : Build.build dim es ns = .ok g) (P : Nat → Prop) (rank : Nat → Nat)
    (hP : ∀ e, P e → ∃ a b, g.scEdgesOf e = .ok (some (a, b)) ∧
      (P a ∨ (∃ l, Expands g a l) ∧ P b ∧ rank b < rank e))
    {p : Path} {pre post : List Nat} {e : Nat} (hp : p.edges = pre ++ e :: post) (he : P e)
    (hpre : ∀ x ∈ pre, ∃ l, Expands g x l) (hr : ∀ x ∈ p.edges, x < g.edgeCount) :
    ∃ fuel, tryFlatten g fuel p = some (.err .cycle) := by
  refine (C22_outcome hb hr).1.mpr ⟨pre, e, post, g.edgeCount + 1, hp, hpre, ?_, by omega⟩
  have key : ∀ n r x, P x → rank x ≤ r → Piles g x (n + 1) := by
    intro n
    induction n with
    | zero =>
      intro r x hx _
      obtain ⟨a, b, h1, -⟩ := hP x hx
      exact .second h1
    | succ n ih =>
      intro r
      induction r with
      | zero =>
        intro x hx hr
        obtain ⟨a, b, h1, h2 | ⟨-, -, h3⟩⟩ := hP x hx
        · exact .first h1 (ih _ a h2 le_rfl)
        · omega
      | succ r ihr =>
        intro x hx hr
        obtain ⟨a, b, h1, h2 | ⟨⟨l, hl⟩, h2, h3⟩⟩ := hP x hx
        · exact .first h1 (ih _ a h2 le_rfl)
        · exact .later h1 hl (ihr b h2 (by omega))
  exact key _ _ e he le_rfl

/-! ### Samples -/

/-- Edge 1 stands for 0 and 2, and edge 2 for 1 and 0. So the cycle leads through a second and a first edge. -/
def mixedEdges : List Build.ProtoEdge :=
  [{ id := none, srcId := 1, dstId := 1, metrics := [1], sc := none },
    { id := none, srcId := 1, dstId := 1, metrics := [2], sc := some (0, 2) },
    { id := none, srcId := 1, dstId := 1, metrics := [4], sc := some (1, 0) }]

/-- The graph of `mixedEdges`. -/
def mixedGraph : Graph := { loopGraph with scEdges := [(0, 2), (1, 0)] }

theorem mixed_build : Build.build 1 mixedEdges [{ id := 1, coord := ⟨0, 0⟩, level := none }] = .ok mixedGraph := by
  decide +kernel

/-- This cycle is noticed. -/
example : ∃ fuel, tryFlatten mixedGraph fuel (Path.new 0 1 0 1 [0, 1]) = some (.err .cycle) := by
  refine C22_first_again mixed_build (fun e => e = 1 ∨ e = 2) (fun e => if e = 1 then 1 else 0) ?_ (pre := [0])
    (post := []) (e := 1) rfl (.inl rfl) ?_ ?_
  · rintro e (rfl | rfl)
    · exact ⟨0, 2, by decide, .inr ⟨⟨[0], .plain (by decide)⟩, .inr rfl, by decide⟩⟩
    · exact ⟨1, 0, by decide, .inl (.inl rfl)⟩
  · intro x hx
    obtain rfl : x = 0 := by simpa using hx
    exact ⟨[0], .plain (by decide)⟩
  · decide

/-- The other one, of `C22_false_diverges`, isn't, and by `C22_outcome`, it isn't overfull. -/
example : ¬ Overfull cycGraph [1] ∧ Cyclic cycGraph 1 := by
  obtain ⟨g, h1, h2⟩ := C22_false_diverges
  obtain rfl : g = cycGraph := by
    have h3 : Build.build 1 [{ id := none, srcId := 1, dstId := 1, metrics := [1], sc := none },
                  { id := none, srcId := 1, dstId := 1, metrics := [2], sc := some (0, 1) }]
        [{ id := 1, coord := ⟨0, 0⟩, level := none }] = .ok cycGraph := by decide +kernel
    rw [h3] at h1
    exact (Res.ok.inj h1).symm
  obtain ⟨h3, e, h4, h5⟩ := (C22_outcome h1 (p := Path.new 0 1 0 1 [1]) (by decide)).2.1.mp h2
  have h6 : e = 1 := by simpa [Path.new] using h4
  exact ⟨h3, h6 ▸ h5⟩

end Verif.Path
