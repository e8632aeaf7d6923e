import Verif.FitSpec
import Verif.GeneratingProps

/-!
# Lemmas for C99
-/

namespace Verif.Fit

open Cfg Yml Gen

theorem mapErr_ok {ε ε' α : Type} {f : ε → ε'} {r : Res ε α} {a : α} (h : Fmi.mapErr f r = .ok a) : r = .ok a := by
  cases r <;> simp_all [Fmi.mapErr]

/-! ## Generating -/

theorem edgeStep_columns {env : Env} {s s' : Net} {c : GenCat} (h : edgeStep env s c = .ok s') :
    s'.nodes = s.nodes ∧ s'.edges = withGenerated s.edges c := by
  have conv : ∀ {l : List Text} {id : Text} {i : Nat},
      (match l.findIdx? fun j => decide (j = id) with | some i => Except.ok i | none => Except.error Cfg.Err.unknownMetric) =
        .ok i → l.idxOf id = i := by
    intro l id i h
    split at h
    · rename_i k hk
      simp only [Except.ok.injEq] at h
      subst h
      rw [List.findIdx?_eq_some_iff_findIdx_eq] at hk
      rw [List.idxOf, ← hk.2]
      congr 1
      funext x
      by_cases hx : x = id <;> simp [hx]
    · simp at h
  cases c with
  | info i id =>
    cases i <;> simp only [edgeStep, Res.ok.injEq, reduceCtorEq] at h <;> subst h <;> exact ⟨rfl, rfl⟩
  | custom u id d =>
    simp only [edgeStep, Res.bind_eq_ok, Res.pure_eq, Res.ok.injEq] at h
    obtain ⟨xs, -, rfl⟩ := h
    exact ⟨rfl, rfl⟩
  | haversine u id =>
    simp only [edgeStep] at h
    split at h
    · simp only [Res.bind_eq_ok, Res.pure_eq, Res.ok.injEq] at h
      obtain ⟨xs, -, rfl⟩ := h
      exact ⟨rfl, rfl⟩
    · simp at h
  | copy src dst =>
    simp only [edgeStep, Res.bind_eq_ok, Res.pure_eq, Res.ok.injEq] at h
    obtain ⟨i, -, xs, -, rfl⟩ := h
    exact ⟨rfl, rfl⟩
  | «calc» r a b =>
    simp only [edgeStep, Res.bind_eq_ok, Res.pure_eq, Res.ok.injEq] at h
    obtain ⟨i, -, j, -, xs, -, rfl⟩ := h
    exact ⟨rfl, rfl⟩
  | merge file hd id cols =>
    simp only [edgeStep, Res.bind_eq_ok, Res.pure_eq, Res.ok.injEq] at h
    obtain ⟨l, -, ms, -, rfl⟩ := h
    exact ⟨rfl, rfl⟩
  | convert src dst =>
    simp only [edgeStep, Res.bind_eq_ok] at h
    obtain ⟨i, hi, xs, -, h⟩ := h
    split at h
    · simp only [Res.pure_eq, Res.ok.injEq] at h
      subst h
      have hi : s.edges.ids.idxOf src.id = i := by
        unfold idxOf at hi
        split at hi
        · rename_i k hk
          simp only [Res.ok.injEq] at hi
          subst hi
          exact conv hk
        · simp at hi
      refine ⟨rfl, ?_⟩
      simp only [withGenerated, hi]
      congr 1
    · simp at h

theorem edges_columns {env : Env} {l : List GenCat} {s s' : Net} (h : l.foldlM (edgeStep env) s = .ok s') :
    s'.nodes = s.nodes ∧ s'.edges = l.foldl withGenerated s.edges := by
  induction l generalizing s with
  | nil =>
    simp only [List.foldlM_nil, Res.pure_eq, Res.ok.injEq] at h
    subst h
    exact ⟨rfl, rfl⟩
  | cons c l ih =>
    simp only [List.foldlM_cons, Res.bind_eq_ok] at h
    obtain ⟨t, ht, h⟩ := h
    obtain ⟨h1, h2⟩ := edgeStep_columns ht
    obtain ⟨h3, h4⟩ := ih h
    exact ⟨h3.trans h1, by rw [h4, h2]; rfl⟩

theorem nodes_columns {l : List GenNodeCat} {s s' : Net} (h : l.foldlM nodeStep s = .ok s') :
    s'.nodes = s.nodes ++ l.map (fun c => .info c.info c.id) ∧ s'.edges = s.edges := by
  induction l generalizing s with
  | nil =>
    simp only [List.foldlM_nil, Res.pure_eq, Res.ok.injEq] at h
    subst h
    simp
  | cons c l ih =>
    simp only [List.foldlM_cons, Res.bind_eq_ok] at h
    obtain ⟨t, ht, h⟩ := h
    obtain ⟨h3, h4⟩ := ih h
    unfold nodeStep at ht
    split at ht
    · split at ht
      · simp at ht
      · simp only [Res.ok.injEq] at ht
        subst ht
        simp only [h3, h4, List.map_cons, and_true]
        simp
    · simp at ht
    · simp at ht

theorem finish_columns {env : Env} {cfg : Parsing} {g : Graph} {net : Net}
    (h : finish env cfg.generating { graph := g, nodes := cfg.nodes, edges := cfg.edges } = .ok net) :
    (net.nodes, net.edges) = columns cfg := by
  simp only [finish, Res.bind_eq_ok] at h
  obtain ⟨t, ht, h⟩ := h
  obtain ⟨h1, h2, -⟩ := normalize_keeps h
  rw [h1, h2]
  unfold columns
  cases hg : cfg.generating with
  | none =>
    rw [hg] at ht
    simp only [generate, Res.ok.injEq] at ht
    subst ht
    rfl
  | some gen =>
    rw [hg] at ht
    simp only [generate, Res.bind_eq_ok] at ht
    obtain ⟨u, hu, ht⟩ := ht
    obtain ⟨h3, h4⟩ := nodes_columns hu
    split at ht
    · simp at ht
    · obtain ⟨h5, h6⟩ := edges_columns ht
      rw [h5, h6, h3, h4]

/-! ## Files that are merged don't matter -/

/-- The same without the content of a file. -/
def forget : GenCat → GenCat
  | .merge _ h e c => .merge none h e c
  | c => c

theorem withGenerated_forget (e : Edges) (c : GenCat) : withGenerated e (forget c) = withGenerated e c := by
  cases c <;> rfl

theorem firstOf_map {α β : Type} (f : α → β) {ds : List (Dec α)} {ds' : List (Dec β)} {y : Yaml}
    (h : List.Forall₂ (fun d d' => (d y).map f = d' y) ds ds') : (firstOf ds y).map f = firstOf ds' y := by
  induction h with
  | nil => rfl
  | @cons d d' ds ds' h1 _ ih =>
    unfold firstOf at ih ⊢
    simp only [List.findSome?_cons]
    rw [← h1]
    cases d y with
    | none => exact ih
    | some a => rfl

theorem variant_map {α β : Type} (f : α → β) {n : String} {d : Dec α} {d' : Dec β} (h : ∀ v, (d v).map f = d' v) (y : Yaml) :
    (variant n d y).map f = variant n d' y := by
  unfold variant
  split
  · split
    · exact h _
    · rfl
  · rfl

theorem open_map {α β : Type} (f : α → β) {d : Entries → Option α} {d' : Entries → Option β}
    (h : ∀ es, (d es).map f = d' es) (y : Yaml) : (open_ d y).map f = open_ d' y := by
  cases y with
  | map es => exact h es
  | _ => rfl

theorem genEdge_forget (N : Numbers) (lines lines' : Text → Option (List Text)) (y : Yaml) :
    (genEdge N lines y).map forget = (genEdge N lines' y).map forget := by
  have key : ∀ lines, (genEdge N lines y).map forget = genEdge N (fun _ => none) y := by
    intro lines
    unfold genEdge
    refine firstOf_map forget ?_
    repeat' refine List.Forall₂.cons (variant_map forget (open_map forget fun es => ?_) y) ?_
    all_goals first | exact List.Forall₂.nil | skip
    all_goals simp only [Option.bind_eq_bind, Option.pure_def, Option.map_bind, Function.comp_def, Option.map_some, forget]
  rw [key, key]

theorem mapM_forget (N : Numbers) (lines lines' : Text → Option (List Text)) (items : List Yaml) :
    (items.mapM (genEdge N lines)).map (List.map forget) = (items.mapM (genEdge N lines')).map (List.map forget) := by
  induction items with
  | nil => rfl
  | cons y items ih =>
    have h := genEdge_forget N lines lines' y
    simp only [List.mapM_cons, Option.bind_eq_bind, Option.pure_def, Option.map_bind, Function.comp_def, Option.map_some,
      List.map_cons]
    cases h1 : genEdge N lines y <;> cases h2 : genEdge N lines' y <;> rw [h1, h2] at h
    · rfl
    · simp at h
    · simp at h
    · simp only [Option.map_some, Option.some.injEq] at h
      simp only [Option.bind_some, h]
      cases h3 : items.mapM (genEdge N lines) <;> cases h4 : items.mapM (genEdge N lines') <;> rw [h3, h4] at ih <;>
        simp_all

theorem foldl_forget (l : List GenCat) (e : Edges) : l.foldl withGenerated e = (l.map forget).foldl withGenerated e := by
  induction l generalizing e with
  | nil => rfl
  | cons c l ih => simp only [List.foldl_cons, List.map_cons, withGenerated_forget]; exact ih _

/-- The same without the contents of files. -/
def forgetAll (g : Generating) : Generating := { g with edges := g.edges.map forget }

theorem orNull_map {α β : Type} (f : α → β) {d d' : Dec α} (h : ∀ y, (d y).map f = (d' y).map f) (y : Yaml) :
    (orNull d y).map (Option.map f) = (orNull d' y).map (Option.map f) := by
  have key : ∀ y, ((d y).map some).map (Option.map f) = ((d' y).map some).map (Option.map f) := by
    intro y
    have := congrArg (Option.map some) (h y)
    simpa [Option.map_map, Function.comp_def] using this
  unfold orNull
  split
  · split
    · rfl
    · exact key _
  · exact key _

theorem generating_forget (N : Numbers) (lines lines' : Text → Option (List Text)) (y : Yaml) :
    (generating N lines y).map forgetAll = (generating N lines' y).map forgetAll := by
  unfold generating closed
  cases y with
  | scalar q t => rfl
  | seq l => rfl
  | map es =>
    dsimp only
    split
    · simp only [Option.bind_eq_bind, Option.pure_def, Option.map_bind, Function.comp_def, Option.map_some]
      congr 1
      funext nodes
      have key : (req "edges" (vec (genEdge N lines)) es).map (List.map forget) =
          (req "edges" (vec (genEdge N lines')) es).map (List.map forget) := by
        unfold req
        split
        · rename_i v _
          cases v with
          | seq l => exact mapM_forget N lines lines' l
          | _ => rfl
        · rfl
      have := congrArg (Option.map fun es => ({ nodes, edges := es } : Generating)) key
      simpa only [Option.map_eq_bind, Option.bind_assoc, Option.bind_some, Function.comp_def, forgetAll] using this
    · rfl

theorem columns_forget (v : Osm.Vehicle) (p : Bool) (nodes : List NodeCat) (edges : Edges) (g : Option Generating) :
    columns { vehicle := v, picky := p, nodes, edges, generating := g } =
      columns { vehicle := v, picky := p, nodes, edges, generating := g.map forgetAll } := by
  cases g with
  | none => rfl
  | some g =>
    show (_, _) = (_, _)
    exact congrArg (Prod.mk _) (foldl_forget _ _)

theorem bind_eq {α β γ δ : Type} (f : α → δ) (F : β → γ) {o o' : Option α} {k k' : α → Option β}
    (h : o.map f = o'.map f) (hk : ∀ a a', f a = f a' → (k a).map F = (k' a').map F) :
    (o.bind k).map F = (o'.bind k').map F := by
  cases o with
  | none =>
    cases o' with
    | none => rfl
    | some a' => simp at h
  | some a =>
    cases o' with
    | none => simp at h
    | some a' => exact hk a a' (by simpa using h)

/-- The columns that a document leads to don't depend on the files that are merged. -/
theorem parsing_columns (N : Numbers) (lines lines' : Text → Option (List Text)) (doc : Yaml) :
    (parsing N lines doc).map (fun p => (p.1, columns p.2)) = (parsing N lines' doc).map (fun p => (p.1, columns p.2)) := by
  have key : ∀ y, (parsingContent N lines y).map (fun p => (p.1, columns p.2)) =
      (parsingContent N lines' y).map (fun p => (p.1, columns p.2)) := by
    intro y
    unfold parsingContent closed
    cases y with
    | scalar q t => rfl
    | seq l => rfl
    | map es =>
      dsimp only
      split
      · simp only [Option.bind_eq_bind]
        refine bind_eq id _ rfl fun mapFile _ h => ?_
        cases h
        refine bind_eq id _ rfl fun vs _ h => ?_
        cases h
        refine bind_eq id _ rfl fun nodes _ h => ?_
        cases h
        refine bind_eq id _ rfl fun p _ h => ?_
        cases h
        refine bind_eq (Option.map forgetAll) _ ?_ fun g g' h => ?_
        · unfold opt
          split
          · rfl
          · exact orNull_map forgetAll (generating_forget N lines lines') _
          · rfl
        · split
          · simp only [Option.pure_def, Option.map_some]
            rw [columns_forget _ _ _ _ g, columns_forget _ _ _ _ g', h]
          · rfl
      · rfl
  unfold parsing open_
  cases doc with
  | scalar q t => rfl
  | seq l => rfl
  | map es =>
    show (req _ _ es).map _ = (req _ _ es).map _
    unfold req
    split
    · exact key _
    · rfl

end Verif.Fit
