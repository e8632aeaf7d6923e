import Verif.Smarts
import Verif.TextLemmas
import Verif.PathProps
import Verif.DijkstraProps

/-!
# C51: exported vehicles
-/

namespace Verif.Smarts

open Text Graph

/-- The nodes `ns`, one after the other, are those that are met when the edges `l` are followed from `u` to
`v`. -/
def Visits (g : Graph) : Nat → List Nat → Nat → List Nat → Prop
  | u, [], v, ns => u = v ∧ ns = [u]
  | u, e :: l, v, ns => ∃ w rest, g.IsEdge e u w ∧ Visits g w l v rest ∧ ns = u :: rest

theorem visits_exists {g : Graph} {u v : Nat} {l : List Nat} (h : g.IsRoute u l v) : ∃ ns, Visits g u l v ns := by
  induction l generalizing u with
  | nil => exact ⟨[u], h, rfl⟩
  | cons e l ih =>
    obtain ⟨w, he, hr⟩ := h
    obtain ⟨ns, hn⟩ := ih hr
    exact ⟨u :: ns, w, ns, he, hn, rfl⟩

theorem visits_head {g : Graph} {u v : Nat} {l ns : List Nat} (h : Visits g u l v ns) : ns.head? = some u := by
  cases l with
  | nil => rw [h.2]; rfl
  | cons e l =>
    obtain ⟨w, rest, -, -, rfl⟩ := h
    rfl

theorem visits_last {g : Graph} {u v : Nat} {l ns : List Nat} (h : Visits g u l v ns) : ns.getLast? = some v := by
  induction l generalizing u ns with
  | nil => rw [h.2, h.1]; rfl
  | cons e l ih =>
    obtain ⟨w, rest, -, hr, rfl⟩ := h
    have := ih hr
    cases rest with
    | nil => simp at this
    | cons a rest => rw [List.getLast?_cons_cons]; exact this

theorem visits_length {g : Graph} {u v : Nat} {l ns : List Nat} (h : Visits g u l v ns) :
    ns.length = l.length + 1 := by
  induction l generalizing u ns with
  | nil => rw [h.2]; rfl
  | cons e l ih =>
    obtain ⟨w, rest, -, hr, rfl⟩ := h
    simp [ih hr]

/-- The ids of nodes. -/
def Ids (g : Graph) (ns : List Nat) (ids : List Int) : Prop :=
  List.Forall₂ (fun n id => g.nodeIds[n]? = some id) ns ids

theorem node_id {g : Graph} (hw : g.WellFormed) {d : Dir} {e v : Nat} (h : g.dstIdx d e = .ok v) :
    ∃ id, g.nodeIds[v]? = some id :=
  ⟨_, List.getElem?_eq_getElem (hw.ends_lt d e v h)⟩

theorem nodeLines_ok {g : Graph} (hw : g.WellFormed) {u v : Nat} {l ns : List Nat} (h : Visits g u l v ns) :
    ∃ ids, Ids g ns.tail ids ∧ nodeLines g false l = .ok (ids.map nodeLine) := by
  induction l generalizing u ns with
  | nil =>
    rw [h.2]
    exact ⟨[], .nil, rfl⟩
  | cons e l ih =>
    obtain ⟨w, rest, he, hr, rfl⟩ := h
    obtain ⟨ids, h1, h2⟩ := ih hr
    obtain ⟨id, hid⟩ := node_id hw he.1
    have hrest : rest = w :: rest.tail := by
      have := visits_head hr
      cases rest with
      | nil => simp at this
      | cons a rest => simp only [List.head?_cons, Option.some.injEq] at this; rw [this]; rfl
    refine ⟨id :: ids, ?_, ?_⟩
    · rw [List.tail_cons, hrest]
      exact .cons hid h1
    · have he' := he.1
      simp only [nodeLines, Bool.false_eq_true, ↓reduceIte, Res.pure_eq, Res.ok_bind, he', Graph.nodeId, hid,
        Res.ofIdx_some, h2, List.nil_append, List.map_cons]

/-- C51: the lines of a vehicle are: its name made of the ids of the path's ends, one line for each visited node
from the source to the destination, and the end. -/
theorem C51_vehicle {g : Graph} (hw : g.WellFormed) {p : Path} (hr : g.IsRoute p.srcIdx p.edges p.dstIdx)
    (hne : p.edges ≠ []) :
    ∃ ns ids src dst, Visits g p.srcIdx p.edges p.dstIdx ns ∧ Ids g ns ids ∧
      ids.head? = some src ∧ ids.getLast? = some dst ∧
      vehicle g p = .ok (vehicleLine src dst :: ids.map nodeLine ++ ["</vehicle>".toList]) := by
  obtain ⟨ns, hv⟩ := visits_exists hr
  have hlast := visits_last hv
  cases hes : p.edges with
  | nil => exact absurd hes hne
  | cons e l =>
    rw [hes] at hv
    obtain ⟨w, rest, he, hr', rfl⟩ := id hv
    obtain ⟨ids, h1, h2⟩ := nodeLines_ok hw hr'
    obtain ⟨src, hsrc⟩ := node_id hw he.2
    obtain ⟨wid, hwid⟩ := node_id hw he.1
    have hrest : rest = w :: rest.tail := by
      have := visits_head hr'
      cases rest with
      | nil => simp at this
      | cons a rest => simp only [List.head?_cons, Option.some.injEq] at this; rw [this]; rfl
    have hids : Ids g (p.srcIdx :: rest) (src :: wid :: ids) := .cons hsrc (by rw [hrest]; exact .cons hwid h1)
    obtain ⟨dst, hd1, hd2⟩ : ∃ dst, (src :: wid :: ids).getLast? = some dst ∧ g.nodeIds[p.dstIdx]? = some dst := by
      have : ∀ (a : List Nat) (b : List Int), Ids g a b → ∀ v, a.getLast? = some v →
          ∃ dst, b.getLast? = some dst ∧ g.nodeIds[v]? = some dst := by
        intro a b hab
        induction hab with
        | nil => intro v hv; simp at hv
        | @cons a b as bs hab htl ih =>
          intro v hv
          cases htl with
          | nil =>
            simp only [List.getLast?_singleton, Option.some.injEq] at hv ⊢
            exact ⟨b, rfl, hv ▸ hab⟩
          | cons h1 h2 =>
            rw [List.getLast?_cons_cons] at hv ⊢
            exact ih v hv
      exact this _ _ hids _ hlast
    refine ⟨p.srcIdx :: rest, src :: wid :: ids, src, dst, hv, hids, rfl, hd1, ?_⟩
    have e1 := he.1
    have e2 := he.2
    unfold vehicle
    simp only [hes, nodeLines, ↓reduceIte, e1, e2, Graph.nodeId, hsrc, hd2, hwid, Res.ofIdx_some, Res.ok_bind, h2,
      Res.pure_eq, List.cons_append, List.nil_append, List.map_cons]

/-- C51: a path without edges has no node line at all. -/
theorem C51_empty {g : Graph} {p : Path} {src dst : Int} (hs : g.nodeIds[p.srcIdx]? = some src)
    (hd : g.nodeIds[p.dstIdx]? = some dst) (h : p.edges = []) :
    vehicle g p = .ok [vehicleLine src dst, "</vehicle>".toList] := by
  unfold vehicle
  simp only [Graph.nodeId, hs, hd, Res.ofIdx_some, Res.ok_bind, h, nodeLines, Res.pure_eq, List.cons_append,
    List.nil_append]

/-- C51: the file lists the vehicles in the order of the paths. -/
theorem C51_file {g : Graph} {ps : List Path} {f : Path → List Text} (h : ∀ p ∈ ps, vehicle g p = .ok (f p)) :
    write g ps = .ok ("<?xml version=\"1.0\" encoding=\"UTF-8\"?>".toList :: "<data>".toList ::
      ps.flatMap f ++ ["</data>".toList]) := by
  have key : vehicles g ps = .ok (ps.flatMap f) := by
    induction ps with
    | nil => rfl
    | cons p ps ih =>
      simp only [vehicles, h p (by simp), Res.ok_bind, ih fun x hx => h x (by simp [hx]), Res.pure_eq,
        List.flatMap_cons]
  unfold write
  rw [key]
  rfl

theorem printInt_inj {a b : Int} (h : printInt a = printInt b) : a = b := by
  have h1 := parseInt_printInt (max := a.natAbs + b.natAbs) (i := a) (by omega) (by omega)
  have h2 := parseInt_printInt (max := a.natAbs + b.natAbs) (i := b) (by omega) (by omega)
  rw [h, h2, Option.some.injEq] at h1
  exact h1.symm

/-- C51: the line of a node tells its id. -/
theorem C51_readable {a b : Int} (h : nodeLine a = nodeLine b) : a = b := by
  unfold nodeLine at h
  rw [List.append_assoc, List.append_assoc, List.append_right_inj, List.append_left_inj] at h
  exact printInt_inj h

/-- Two edges of the sample graph, with the ids of the three visited nodes. -/
example : Dij.sqGraph.IsRoute 0 [0, 3] 3 ∧ vehicle Dij.sqGraph (Path.new 0 0 3 3 [0, 3]) =
    .ok [vehicleLine 0 3, "<node id=\"0\"/>".toList, "<node id=\"2\"/>".toList, "<node id=\"3\"/>".toList,
      "</vehicle>".toList] :=
  ⟨⟨2, by unfold Graph.IsEdge; decide +kernel, 3, by unfold Graph.IsEdge; decide +kernel, rfl⟩, by decide +kernel⟩

end Verif.Smarts
