import Verif.YamlSpec

/-!
# Lemmas about reading documents
-/

namespace Verif.Yml

open Cfg

/-! ## Values of keys -/

theorem mem_values {k : String} {es : Entries} {v : Yaml} : v ∈ values k es ↔ (k.toList, v) ∈ es := by
  simp only [values, List.mem_map, List.mem_filter, decide_eq_true_eq]
  constructor
  · rintro ⟨⟨k', v'⟩, ⟨h, rfl⟩, rfl⟩
    exact h
  · intro h
    exact ⟨_, ⟨h, rfl⟩, rfl⟩

theorem valuesAt_one (k : String) (es : Entries) : valuesAt [k] (.map es) = values k es := by
  simp only [valuesAt, values]
  induction es with
  | nil => rfl
  | cons e es ih =>
    by_cases h : e.1 = k.toList
    · simp [h, ← ih]
    · simp [h, ← ih]

theorem valuesAt_cons (k : String) (ks : List String) (es : Entries) :
    valuesAt (k :: ks) (.map es) = (values k es).flatMap (valuesAt ks) := by
  simp only [valuesAt, values]
  induction es with
  | nil => rfl
  | cons e es ih =>
    by_cases h : e.1 = k.toList
    · simp [h, ← ih]
    · simp [h, ← ih]

theorem values_le_one {k : String} {es : Entries} (h : (es.map Prod.fst).Nodup) :
    values k es = [] ∨ ∃ v, values k es = [v] := by
  induction es with
  | nil => exact .inl rfl
  | cons e es ih =>
    simp only [List.map_cons, List.nodup_cons] at h
    by_cases hk : e.1 = k.toList
    · have : values k es = [] := by
        rw [List.eq_nil_iff_forall_not_mem]
        intro v hv
        exact h.1 (List.mem_map.mpr ⟨_, mem_values.mp hv, hk.symm⟩)
      refine .inr ⟨e.2, ?_⟩
      have : values k (e :: es) = e.2 :: values k es := by simp [values, hk]
      simp_all
    · have : values k (e :: es) = values k es := by simp [values, hk]
      rw [this]
      exact ih h.2

theorem req_eq {α : Type} {k : String} {d : Dec α} {es : Entries} {a : α} (h : req k d es = some a) :
    ∃ v, values k es = [v] ∧ d v = some a := by
  unfold req at h
  split at h
  · exact ⟨_, ‹_›, h⟩
  · exact absurd h (by simp)

theorem req_mem {α : Type} {k : String} {d : Dec α} {es : Entries} {a : α} {v : Yaml} (h : req k d es = some a)
    (hv : (k.toList, v) ∈ es) : d v = some a := by
  obtain ⟨w, hw, hd⟩ := req_eq h
  have := mem_values.mpr hv
  rw [hw, List.mem_singleton] at this
  exact this ▸ hd

theorem opt_mem {α : Type} {k : String} {d : Dec α} {es : Entries} {a : Option α} {v : Yaml}
    (h : opt k d es = some a) (hv : (k.toList, v) ∈ es) : orNull d v = some a := by
  have hm := mem_values.mpr hv
  unfold opt at h
  split at h
  · simp_all
  · simp_all
  · exact absurd h (by simp)

theorem req_congr {α : Type} {k : String} {d : Dec α} {es es' : Entries} (h : values k es = values k es') :
    req k d es = req k d es' := by unfold req; rw [h]

theorem req_nil {α : Type} {k : String} {d : Dec α} {es : Entries} (h : values k es = []) : req k d es = none := by
  unfold req; rw [h]

/-! ## Sections -/

theorem dependsOn_open {α : Type} (k : String) (d : Dec α) : DependsOn [k] (open_ (req k d)) := by
  have key : ∀ y : Yaml, open_ (req k d) y = match valuesAt [k] y with | [v] => d v | _ => none := by
    intro y
    cases y with
    | scalar q t => rfl
    | seq ys => rfl
    | map es => simp only [open_, req, valuesAt_one]; rfl
  intro d1 d2 _ _ h
  rw [key, key, h]

theorem dependsOn_open_open {α : Type} (k l : String) (d : Dec α) :
    DependsOn [k, l] (open_ (req k (open_ (req l d)))) := by
  have key : ∀ y : Yaml, UniqueKeys y →
      open_ (req k (open_ (req l d))) y = match valuesAt [k, l] y with | [v] => d v | _ => none := by
    intro y hu
    cases y with
    | scalar q t => rfl
    | seq ys => rfl
    | map es =>
      rw [valuesAt_cons]
      rcases values_le_one (k := k) hu with h | ⟨v, h⟩
      · simp [open_, req, h]
      · simp only [open_, req, h, List.flatMap_cons, List.flatMap_nil, List.append_nil]
        cases v with
        | scalar q t => rfl
        | seq ys => rfl
        | map es => simp only [valuesAt_one]; rfl
  intro d1 d2 h1 h2 h
  rw [key _ h1, key _ h2, h]

theorem DependsOn.comp {ρ σ : Type} {p : List String} {f : Yaml → ρ} (h : DependsOn p f) (g : ρ → σ) :
    DependsOn p fun y => g (f y) := fun d d' h1 h2 h3 => congrArg g (h d d' h1 h2 h3)

/-! ## Keys -/

/-- If reading succeeds, all paths of keys are fine. -/
def Keys {α : Type} (d : Dec α) (P : List Text → Prop) : Prop :=
  ∀ (y : Yaml) (a : α) (p : List Text), d y = some a → HasPath y p → P p

theorem Keys.mono {α : Type} {d : Dec α} {P Q : List Text → Prop} (h : Keys d P) (hpq : ∀ p, P p → Q p) : Keys d Q :=
  fun y a p h1 h2 => hpq p (h y a p h1 h2)

theorem no_path_scalar {q : Bool} {t : Text} {p : List Text} : ¬ HasPath (.scalar q t) p := by
  intro h; cases h

theorem keys_text (N : Numbers) (buf : Bool) (P : List Text → Prop) : Keys (text N buf) P := by
  intro y a p h hp
  cases y with
  | scalar q t => exact absurd hp no_path_scalar
  | seq ys => cases h
  | map es => cases h

theorem keys_nat (N : Numbers) (P : List Text → Prop) : Keys (nat N) P := by
  intro y a p h hp
  cases y with
  | scalar q t => exact absurd hp no_path_scalar
  | seq ys => cases h
  | map es => cases h

theorem keys_num (N : Numbers) (P : List Text → Prop) : Keys (num N) P := by
  intro y a p h hp
  cases y with
  | scalar q t => exact absurd hp no_path_scalar
  | seq ys => cases h
  | map es => cases h

theorem keys_bool (N : Numbers) (P : List Text → Prop) : Keys (bool N) P := by
  intro y a p h hp
  cases y with
  | scalar q t => exact absurd hp no_path_scalar
  | seq ys => cases h
  | map es => cases h

theorem Keys.map {α β : Type} {d : Dec α} {P : List Text → Prop} (h : Keys d P) (f : α → β) :
    Keys (fun y => (d y).map f) P := by
  intro y a p h1 h2
  obtain ⟨b, hb, -⟩ := Option.map_eq_some_iff.mp h1
  exact h y b p hb h2

theorem Keys.orNull {α : Type} {d : Dec α} {P : List Text → Prop} (h : Keys d P) : Keys (orNull d) P := by
  intro y a p h1 h2
  cases y with
  | scalar q t => exact absurd h2 no_path_scalar
  | seq ys =>
    obtain ⟨b, hb, -⟩ := Option.map_eq_some_iff.mp h1
    exact h _ b p hb h2
  | map es =>
    obtain ⟨b, hb, -⟩ := Option.map_eq_some_iff.mp h1
    exact h _ b p hb h2

theorem mapM_mem {α β : Type} {f : α → Option β} {l : List α} {r : List β} (h : l.mapM f = some r) {x : α}
    (hx : x ∈ l) : ∃ b, f x = some b := by
  induction l generalizing r with
  | nil => simp at hx
  | cons a l ih =>
    rw [List.mapM_cons] at h
    cases ha : f a with
    | none => simp [ha] at h
    | some b =>
      rcases List.mem_cons.mp hx with rfl | hx
      · exact ⟨b, ha⟩
      · cases hl : l.mapM f with
        | none => simp [ha, hl] at h
        | some bs => exact ih hl hx

theorem Keys.vec {α : Type} {d : Dec α} {P : List Text → Prop} (h : Keys d P) : Keys (vec d) P := by
  intro y a p h1 h2
  cases y with
  | scalar q t => exact absurd h2 no_path_scalar
  | map es => cases h1
  | seq ys =>
    cases h2 with
    | item hv hp =>
      obtain ⟨b, hb⟩ := mapM_mem h1 hv
      exact h _ b _ hb hp

theorem keys_closed {α : Type} {known : List String} {f : Entries → Option α} {P : List Text → Prop}
    (h1 : ∀ k ∈ known, P [k.toList])
    (h2 : ∀ es a, f es = some a → ∀ k ∈ known, ∀ v, (k.toList, v) ∈ es → ∀ p, HasPath v p → P (k.toList :: p)) :
    Keys (closed known f) P := by
  intro y a p h hp
  cases y with
  | scalar q t => cases h
  | seq ys => cases h
  | map es =>
    simp only [closed] at h
    split at h
    · rename_i hall
      rw [List.all_eq_true] at hall
      have hk : ∀ k v, (k, v) ∈ es → ∃ k' ∈ known, k = k'.toList := by
        intro k v hkv
        have := hall _ hkv
        simpa using this
      cases hp with
      | here hm =>
        obtain ⟨k', hk', rfl⟩ := hk _ _ hm
        exact h1 _ hk'
      | key hm hp =>
        obtain ⟨k', hk', rfl⟩ := hk _ _ hm
        exact h2 es a h _ hk' _ hm _ hp
    · exact absurd h (by simp)

theorem keys_variant {α : Type} {name : String} {d : Dec α} {P : List Text → Prop} (h1 : P [name.toList])
    (h2 : Keys d fun p => P (name.toList :: p)) : Keys (variant name d) P := by
  intro y a p h hp
  unfold variant at h
  split at h
  · rename_i k v
    split at h
    · rename_i hk
      cases hp with
      | here hm =>
        simp only [List.mem_singleton, Prod.mk.injEq] at hm
        rw [hm.1, hk]; exact h1
      | key hm hp =>
        simp only [List.mem_singleton, Prod.mk.injEq] at hm
        obtain ⟨rfl, rfl⟩ := hm
        rw [hk]
        exact h2 _ a _ h hp
    · exact absurd h (by simp)
  · exact absurd h (by simp)

theorem keys_names {α : Type} {N : Numbers} {buf : Bool} {vs : List (String × α)} {P : List Text → Prop}
    (h1 : ∀ v ∈ vs, P [v.1.toList]) : Keys (names N buf vs) P := by
  intro y a p h hp
  obtain ⟨v, hv, -⟩ := Option.map_eq_some_iff.mp h
  have hm := List.mem_of_find?_eq_some hv
  have hs := List.find?_some hv
  unfold unitVariant at hs
  split at hs
  · exact absurd hp no_path_scalar
  · rename_i k t
    simp only [Bool.and_eq_true, decide_eq_true_eq] at hs
    cases hp with
    | here hmem =>
      simp only [List.mem_singleton, Prod.mk.injEq] at hmem
      rw [hmem.1, hs.1]
      exact h1 v hm
    | key hmem hp =>
      simp only [List.mem_singleton, Prod.mk.injEq] at hmem
      rw [hmem.2] at hp
      exact absurd hp no_path_scalar
  · exact absurd hs (by simp)

theorem keys_firstOf {α : Type} {ds : List (Dec α)} {P : List Text → Prop} (h : ∀ d ∈ ds, Keys d P) :
    Keys (firstOf ds) P := by
  intro y a p h1 h2
  obtain ⟨d, hd, hs⟩ := List.exists_of_findSome?_eq_some h1
  exact h d hd y a p hs h2

/-- Below a required field. -/
theorem Keys.req {α : Type} {d : Dec α} {P : List Text → Prop} (h : Keys d P) {k : String} {es : Entries} {a : α}
    (hr : req k d es = some a) {v : Yaml} (hv : (k.toList, v) ∈ es) {p : List Text} (hp : HasPath v p) : P p :=
  h v a p (req_mem hr hv) hp

/-- Below an optional field. -/
theorem Keys.opt {α : Type} {d : Dec α} {P : List Text → Prop} (h : Keys d P) {k : String} {es : Entries}
    {a : Option α} (hr : opt k d es = some a) {v : Yaml} (hv : (k.toList, v) ∈ es) {p : List Text} (hp : HasPath v p) :
    P p := h.orNull v a p (opt_mem hr hv) hp

end Verif.Yml
