import Verif.SpecialSpec
import Verif.OverflowLemmas2

/-!
# Lemmas about values that are no finite numbers
-/

namespace Verif.Special

open Dij Search Graph Fp

/-! ## Weights -/

/-- A finite value. -/
def toOpt {K : Type} : Num K → Option K
  | .fin x => some x
  | _ => none

theorem toOpt_cap (x : Rounded f64) : toOpt (capN x) = Over.cap Over.fitsF x := by
  unfold capN Over.cap; split <;> rfl

theorem addN_plus {x y : Num (Rounded f64)} : toOpt (addN x y) = Over.plus Over.fitsF (toOpt x) (toOpt y) := by
  cases x <;> cases y <;> try rfl
  exact toOpt_cap _

theorem capN_neg (x : Rounded f64) : capN x ≠ .neg := by unfold capN; split <;> simp

theorem addN_neg {x y : Num (Rounded f64)} (hx : x ≠ .neg) (hy : y ≠ .neg) : addN x y ≠ .neg := by
  cases x <;> cases y <;> simp_all [addN, capN_neg]

theorem mulN_neg {a : ℚ} {x : Num ℚ} (ha : 0 ≤ a) (hx : x ≠ .neg) : mulN a x ≠ .neg := by
  cases x with
  | fin x => exact capN_neg _
  | inf =>
    simp only [mulN]
    by_cases h : a = 0
    · simp [h]
    · rw [if_neg h, if_pos (lt_of_le_of_ne ha (Ne.symm h))]; simp
  | neg => exact absurd rfl hx
  | nan => simp [mulN]

theorem fold_neg {l : List (ℚ × Num ℚ)} (hl : ∀ p ∈ l, 0 ≤ p.1 ∧ p.2 ≠ .neg) {s : Num (Rounded f64)} (hs : s ≠ .neg) :
    l.foldl (fun s p => addN s (mulN p.1 p.2)) s ≠ .neg := by
  induction l generalizing s with
  | nil => exact hs
  | cons p l ih =>
    exact ih (fun q hq => hl q (List.mem_cons_of_mem _ hq))
      (addN_neg hs (mulN_neg (hl p List.mem_cons_self).1 (hl p List.mem_cons_self).2))

theorem dotN_neg {al : List ℚ} {m : List (Num ℚ)} (ha : ∀ a ∈ al, 0 ≤ a) (hm : ∀ x ∈ m, x ≠ .neg) :
    dotN al m ≠ .neg :=
  fold_neg (fun p hp => ⟨ha _ (List.of_mem_zip hp).1, hm _ (List.of_mem_zip hp).2⟩) (by simp)

theorem fold_none {l : List (ℚ × Num ℚ)} {s : Num (Rounded f64)} (hs : toOpt s = none) :
    toOpt (l.foldl (fun s p => addN s (mulN p.1 p.2)) s) = none := by
  induction l generalizing s with
  | nil => exact hs
  | cons p l ih =>
    refine ih ?_
    rw [addN_plus, hs]
    rfl

theorem fold_fin {l : List (ℚ × ℚ)} {s : Num (Rounded f64)} :
    toOpt ((l.map (fun p => (p.1, Num.fin p.2))).foldl (fun s p => addN s (mulN p.1 p.2)) s) =
      l.foldl (fun s p => Over.plus Over.fitsF s (Over.cap Over.fitsF ⟨f64.rnd (p.1 * p.2), f64.idem _⟩)) (toOpt s) := by
  induction l generalizing s with
  | nil => rfl
  | cons p l ih =>
    simp only [List.map_cons, List.foldl_cons]
    rw [ih, addN_plus]
    congr 2
    exact toOpt_cap _

theorem dotN_fin (al ys : List ℚ) : toOpt (dotN al (ys.map .fin)) = Over.dot al ys := by
  unfold dotN Over.dot
  have : al.zip (ys.map Num.fin) = (al.zip ys).map (fun p => (p.1, Num.fin p.2)) := by
    rw [List.zip_map_right]
    rfl
  rw [this, fold_fin]
  rfl

theorem mulN_special {a : ℚ} {x : Num ℚ} (hx : ∀ y : ℚ, x ≠ .fin y) : toOpt (mulN a x) = none := by
  cases x with
  | fin x => exact absurd rfl (hx x)
  | inf => simp only [mulN]; split_ifs <;> rfl
  | neg => simp only [mulN]; split_ifs <;> rfl
  | nan => rfl

theorem fold_special {l : List (ℚ × Num ℚ)} (hl : ∃ p ∈ l, ∀ y : ℚ, p.2 ≠ .fin y) {s : Num (Rounded f64)} :
    toOpt (l.foldl (fun s p => addN s (mulN p.1 p.2)) s) = none := by
  induction l generalizing s with
  | nil => obtain ⟨p, hp, _⟩ := hl; cases hp
  | cons p l ih =>
    obtain ⟨p', hp', hx⟩ := hl
    rcases List.mem_cons.mp hp' with rfl | hp'
    · refine fold_none (s := addN s (mulN _ _)) ?_
      rw [addN_plus, mulN_special hx]
      cases toOpt s <;> rfl
    · exact ih ⟨p', hp', hx⟩

theorem exists_zip {α β : Type} {l : List α} {m : List β} (h : m.length = l.length) {x : β} (hx : x ∈ m) :
    ∃ a, (a, x) ∈ l.zip m := by
  induction m generalizing l with
  | nil => cases hx
  | cons y m ih =>
    cases l with
    | nil => simp at h
    | cons a l =>
      rcases List.mem_cons.mp hx with rfl | hx
      · exact ⟨a, by simp⟩
      · obtain ⟨b, hb⟩ := ih (by simpa using h) hx
        exact ⟨b, List.mem_cons_of_mem _ hb⟩

/-- The weight of an edge is finite only if all its values are. -/
theorem dotN_open {al : List ℚ} {m : List (Num ℚ)} (hl : m.length = al.length) {w : Rounded f64}
    (hw : toOpt (dotN al m) = some w) : ∀ x ∈ m, ∃ y : ℚ, x = .fin y := by
  intro x hx
  by_contra hcon
  push Not at hcon
  obtain ⟨a, ha⟩ := exists_zip hl hx
  have : toOpt (dotN al m) = none := fold_special ⟨_, ha, hcon⟩
  rw [this] at hw
  cases hw

theorem all_fin {m : List (Num ℚ)} (h : ∀ x ∈ m, ∃ y : ℚ, x = .fin y) : ∃ ys : List ℚ, m = ys.map .fin := by
  induction m with
  | nil => exact ⟨[], rfl⟩
  | cons x m ih =>
    obtain ⟨y, rfl⟩ := h x List.mem_cons_self
    obtain ⟨ys, rfl⟩ := ih (fun x hx => h x (List.mem_cons_of_mem _ hx))
    exact ⟨y :: ys, rfl⟩

/-! ## The router is that of `Overflow.lean` with other weights -/

/-- Each edge has its index as metric. -/
def code (g : Graph) (k : Nat) : Graph := { g with metrics := (List.range k).map fun e : Nat => [(e : ℚ)] }

/-- The weight of an edge by its index. -/
def look (ms : List (List (Num ℚ))) (al : List ℚ) (m : List ℚ) : Option (Rounded f64) :=
  match m with
  | [x] => match ms[x.num.toNat]? with
    | some v => toOpt (dotN al v)
    | none => none
  | _ => none

theorem code_get (g : Graph) {ms : List (List (Num ℚ))} {e : Nat} : (code g ms.length).metrics[e]? =
    (ms[e]?).map fun _ => [(e : ℚ)] := by
  unfold code
  simp only
  by_cases h : e < ms.length
  · rw [List.getElem?_map, List.getElem?_range h, List.getElem?_eq_getElem h]; rfl
  · rw [List.getElem?_eq_none (by simpa using h), List.getElem?_eq_none (by simpa using h)]; rfl

theorem look_get {ms : List (List (Num ℚ))} {al : List ℚ} {e : Nat} {v : List (Num ℚ)} (h : ms[e]? = some v) :
    look ms al [(e : ℚ)] = toOpt (dotN al v) := by
  have : ((e : ℚ).num.toNat) = e := by simp
  simp only [look, this, h]

section
variable {h : Heap (Rounded f64)} {g : Graph} {ms : List (List (Num ℚ))} {al : List ℚ}

theorem relax_eq (ha : ∀ a ∈ al, 0 ≤ a) (hm : Nonneg ms) {isNone : Bool} {cur : CN (Rounded f64)} {es : List Nat}
    {s : St (Rounded f64)} : relax h g ms (dotN al) isNone cur es s =
      Over.relax Over.fitsF h (code g ms.length) (look ms al) isNone cur es s := by
  induction es generalizing s with
  | nil => rfl
  | cons e es ih =>
    unfold relax Over.relax
    refine congrArg _ (funext fun v => congrArg _ (funext fun lower => ?_))
    split
    · rfl
    rw [code_get]
    cases hv : ms[e]? with
    | none => rfl
    | some m =>
      simp only [Option.map_some, Res.ofIdx, Res.ok_bind]
      refine congrArg _ (funext fun old => ?_)
      rw [look_get hv]
      have hneg : addN (.fin cur.cost) (dotN al m) ≠ .neg :=
        addN_neg (by simp) (dotN_neg ha fun x hx => (hm m (List.mem_of_getElem? hv) x hx).1)
      have hp : Over.plus Over.fitsF (some cur.cost) (toOpt (dotN al m)) =
          toOpt (addN (.fin cur.cost) (dotN al m)) := by rw [addN_plus]; rfl
      rw [hp]
      cases hc : addN (.fin cur.cost) (dotN al m) with
      | inf => exact ih
      | nan => exact ih
      | neg => exact absurd hc hneg
      | fin c =>
        simp only [toOpt]
        split
        · refine congrArg _ (funext fun ps => congrArg _ (funext fun cs => ih))
        · exact ih

theorem expand_eq (ha : ∀ a ∈ al, 0 ≤ a) (hm : Nonneg ms) : expand h g ms (dotN al) =
    Over.expand Over.fitsF h (code g ms.length) (look ms al) := by
  funext s best cur
  unfold expand Over.expand
  refine congrArg _ (funext fun es => ?_)
  rw [relax_eq ha hm]

theorem step_eq (ha : ∀ a ∈ al, 0 ≤ a) (hm : Nonneg ms) : step h g ms (dotN al) =
    Over.step Over.fitsF h (code g ms.length) (look ms al) := by
  funext s best cur
  unfold step Over.step
  rw [expand_eq ha hm]
  split
  · rfl
  refine congrArg _ (funext fun label => ?_)
  split
  · rfl
  refine congrArg _ (funext fun s => ?_)
  rcases best with _ | ⟨m, b⟩ <;> rfl

theorem loop_eq (ha : ∀ a ∈ al, 0 ≤ a) (hm : Nonneg ms) : loop h g ms (dotN al) =
    Over.loop Over.fitsF h (code g ms.length) (look ms al) := by
  funext fuel
  induction fuel with
  | zero => rfl
  | succ fuel ih =>
    funext s best
    unfold loop Over.loop
    rw [step_eq ha hm, ih]
    rcases h.pop s.queue with _ | ⟨cur, q⟩
    · rfl
    simp only
    rcases Over.step Over.fitsF h (code g ms.length) (look ms al) { s with queue := q } best cur with (_ | _) | _ | _ <;>
      rfl

theorem walk_code {k : Nat} {s : St (Rounded f64)} {d : Dir} {fuel cur : Nat} :
    walk (code g k) s d fuel cur = walk g s d fuel cur := by
  induction fuel generalizing cur with
  | zero => rfl
  | succ fuel ih =>
    unfold walk
    simp only [ih]
    rfl

theorem mkPath_code {k : Nat} {s : St (Rounded f64)} {best : Best (Rounded f64)} {fuel src dst : Nat} :
    mkPath (code g k) fuel s best src dst = mkPath g fuel s best src dst := by
  unfold mkPath
  simp only [walk_code]
  rfl

end

/-- The same query with indices as metrics. -/
def codeQ (q : Query (Rounded f64)) (k : Nat) : Query (Rounded f64) := { q with graph := code q.graph k }

theorem router_eq {ms : List (List (Num ℚ))} (hm : Nonneg ms) {fuel : Nat} {s : St (Rounded f64)}
    {q : Query (Rounded f64)} : router ms fuel s q =
      Over.computeBestPath Over.fitsF (heap f64) (look ms) fuel s (codeQ q ms.length) := by
  unfold router Over.computeBestPath
  by_cases hal : ∀ a ∈ q.alphas, 0 ≤ a
  swap
  · rw [if_pos (by simpa using hal), if_pos (by simpa [codeQ] using hal)]
  rw [if_neg (by simpa using hal), if_neg (by simpa [codeQ] using hal)]
  have hs : search (heap f64) q.graph ms (dotN q.alphas) =
      Over.search Over.fitsF (heap f64) (code q.graph ms.length) (look ms q.alphas) := by
    funext fuel s src dst
    unfold search Over.search
    rw [loop_eq hal hm]
    rcases Over.loop Over.fitsF (heap f64) (code q.graph ms.length) (look ms q.alphas) fuel s none with
      _ | ⟨_, _⟩ | _ | _
    · rfl
    · simp only [mkPath_code]
    · rfl
    · rfl
  rw [hs]
  have e (b : Bool) : (do
      let s ← initQuery { s with isCh := b } (codeQ q ms.length).graph.nodeCount
      start (heap f64) s (codeQ q ms.length).src (codeQ q ms.length).dst) = (do
      let s ← initQuery { s with isCh := b } q.graph.nodeCount
      start (heap f64) s q.src q.dst) := rfl
  have e' : (codeQ q ms.length).algo = q.algo := rfl
  rw [e']
  cases q.algo with
  | explorator => rfl
  | dijkstra | chDijkstra =>
    simp only [e]
    split <;> rename_i h1 <;> (simp only [h1]; try rfl)

theorem Used.tidy {n : Nat} {s : St (Rounded f64)} (hu : Used n s) : Tidy n s := by
  induction hu with
  | new => exact Tidy.new n
  | query _ hq hm hc ih =>
    rw [router_eq hm] at hc
    exact Over.compute_tidyB (by exact hq) ih hc

end Verif.Special
