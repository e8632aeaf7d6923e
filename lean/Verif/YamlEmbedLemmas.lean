import Verif.YamlLemmas

/-!
# Sections that are read directly or buffered
-/

namespace Verif.Yml

theorem req_mono {α : Type} {k : String} {d d' : Dec α} {es : Entries} {a : α} (hd : ∀ y a, d y = some a → d' y = some a)
    (h : req k d es = some a) : req k d' es = some a := by
  unfold req at h ⊢
  split at h
  · exact hd _ _ h
  · cases h

theorem orNull_mono {α : Type} {d d' : Dec α} {y : Yaml} {a : Option α} (hd : ∀ y a, d y = some a → d' y = some a)
    (h : orNull d y = some a) : orNull d' y = some a := by
  have key : ∀ {y : Yaml} {a : Option α}, (d y).map some = some a → (d' y).map some = some a := by
    intro y a h
    obtain ⟨b, hb, rfl⟩ := Option.map_eq_some_iff.mp h
    rw [hd _ _ hb]; rfl
  unfold orNull at h ⊢
  split at h
  · split at h
    · rename_i hn
      simp only [hn, if_true]
      exact h
    · rename_i hn
      simp only [hn]
      exact key h
  · exact key h

theorem opt_mono {α : Type} {k : String} {d d' : Dec α} {es : Entries} {a : Option α}
    (hd : ∀ y a, d y = some a → d' y = some a) (h : opt k d es = some a) : opt k d' es = some a := by
  unfold opt at h ⊢
  split at h
  · exact h
  · exact orNull_mono hd h
  · cases h

theorem mapM_mono {α β : Type} {f g : α → Option β} (hd : ∀ y a, f y = some a → g y = some a) {l : List α} {r : List β}
    (h : l.mapM f = some r) : l.mapM g = some r := by
  induction l generalizing r with
  | nil => exact h
  | cons x l ih =>
    rw [List.mapM_cons] at h ⊢
    simp only [Option.bind_eq_bind, Option.bind_eq_some_iff] at h
    obtain ⟨y, hy, zs, hz, hp⟩ := h
    rw [hd _ _ hy, ih hz]
    exact hp

theorem vec_mono {α : Type} {d d' : Dec α} (hd : ∀ y a, d y = some a → d' y = some a) {y : Yaml} {a : List α}
    (h : vec d y = some a) : vec d' y = some a := by
  cases y with
  | seq ys => exact mapM_mono hd h
  | scalar q t => cases h
  | map es => cases h

theorem text_mono {N : Numbers} {y : Yaml} {a : Text} (h : text N true y = some a) : text N false y = some a := by
  cases y with
  | scalar q t =>
    simp only [text, if_true] at h
    split at h
    · exact h
    · cases h
  | seq ys => cases h
  | map es => cases h

theorem column_two (N : Numbers) (buf : Bool) (e f : Text × Yaml) (es : Entries) :
    column N buf (.map (e :: f :: es)) = none := by
  obtain ⟨k, v⟩ := e
  simp [column, firstOf, variant, names, unitVariant]

theorem column_mono {N : Numbers} {y : Yaml} {a : Option Text} (h : column N true y = some a) :
    column N false y = some a := by
  cases y with
  | scalar q t =>
    simp only [column, firstOf, List.findSome?, variant, names, List.find?, unitVariant] at h ⊢
    by_cases ht : t = "ignored".toList
    · subst ht
      revert h
      cases decide (kind N q "ignored".toList = .str) <;> simp
    · simp only [ht, decide_false, Bool.false_and] at h
      cases h
  | seq ys => exact h
  | map es =>
    rcases es with _ | ⟨⟨k, v⟩, _ | ⟨e, es⟩⟩
    · exact h
    · have hu : ∀ buf, unitVariant N buf "ignored" (.map [(k, v)]) = unitVariant N true "ignored" (.map [(k, v)]) := by
        intro buf
        cases v with
        | scalar q t => cases q <;> rfl
        | seq _ => rfl
        | map _ => rfl
      simp only [column, firstOf, List.findSome?, variant, names, List.find?, hu false] at h ⊢
      by_cases hk : k = "id".toList
      · simp only [hk, if_true] at h ⊢
        cases ht : text N true v with
        | some t =>
          rw [ht] at h
          rw [text_mono ht]
          exact h
        | none =>
          rw [ht] at h
          subst hk
          cases v with
          | scalar q t => cases q <;> simp [unitVariant] at h
          | seq _ => simp [unitVariant] at h
          | map _ => simp [unitVariant] at h
      · simp only [hk, if_false] at h ⊢
        exact h
    · rw [column_two] at h
      cases h

theorem multiCh_mono {N : Numbers} {y : Yaml} {c : MultiCh} (h : multiChContent N true y = some c) :
    multiChContent N false y = some c := by
  cases y with
  | scalar q t => cases h
  | seq ys => cases h
  | map es =>
    unfold multiChContent closed at h ⊢
    dsimp only at h ⊢
    split at h
    · rename_i hall
      rw [if_pos hall]
      simp only [Option.bind_eq_bind, Option.bind_eq_some_iff] at h
      obtain ⟨a1, h1, a2, h2, a3, h3, a4, h4, a5, h5, a6, h6, a7, h7, a8, h8, a9, h9, hp⟩ := h
      have m : ∀ y a, text N true y = some a → text N false y = some a := fun _ _ => text_mono
      rw [req_mono m h1, req_mono m h2, h3, h4, h5, opt_mono m h6, h7, h8, h9]
      exact hp
    · cases h

theorem edgesInfo_mono {N : Numbers} {y : Yaml} {c : EdgesInfo} (h : edgesInfoContent N true y = some c) :
    edgesInfoContent N false y = some c := by
  cases y with
  | scalar q t => cases h
  | seq ys => cases h
  | map es =>
    unfold edgesInfoContent closed at h ⊢
    dsimp only at h ⊢
    split at h
    · rename_i hall
      rw [if_pos hall]
      simp only [Option.bind_eq_bind, Option.bind_eq_some_iff] at h
      obtain ⟨a1, h1, a2, h2, a3, h3, a4, h4, hp⟩ := h
      rw [req_mono (fun _ _ => text_mono) h1, h2, h3, req_mono (fun _ _ => vec_mono fun _ _ => column_mono) h4]
      exact hp
    · cases h

/-! ## The other direction -/

theorem IsText.kind {N : Numbers} {q : Bool} {t : Text} (h : IsText N (.scalar q t)) : kind N q t = .str := by
  rcases h with rfl | ⟨h1, h2, h3⟩
  · rfl
  · cases q with
    | true => rfl
    | false =>
      simp only [List.mem_cons, List.not_mem_nil, or_false, not_or] at h1
      obtain ⟨a, b, c, d⟩ := h1
      simp only [Yml.kind, isNull, a, b, c, d, h2, h3, decide_false, Bool.or_self, if_false, Bool.false_eq_true]

theorem text_isText {N : Numbers} {y : Yaml} (h : IsText N y) : text N true y = text N false y := by
  cases y with
  | scalar q t => simp [text, h.kind]
  | seq ys => rfl
  | map es => rfl

theorem req_congr_dec {α : Type} {k : String} {d d' : Dec α} {es : Entries} (h : ∀ v ∈ values k es, d v = d' v) :
    req k d es = req k d' es := by
  unfold req
  split
  · rename_i v hv
    exact h v (by rw [hv]; simp)
  · rfl

theorem opt_congr_dec {α : Type} {k : String} {d d' : Dec α} {es : Entries}
    (h : ∀ v ∈ values k es, orNull d v = orNull d' v) : opt k d es = opt k d' es := by
  unfold opt
  split
  · rfl
  · rename_i v hv
    exact h v (by rw [hv]; simp)
  · rfl

theorem orNull_congr_dec {α : Type} {d d' : Dec α} {v : Yaml} (h : d v = d' v) : orNull d v = orNull d' v := by
  unfold orNull
  split
  · rw [h]
  · rw [h]

theorem multiCh_texts {N : Numbers} {y : Yaml} (h : MultiChTexts N y) :
    multiChContent N true y = multiChContent N false y := by
  cases y with
  | scalar q t => rfl
  | seq ys => rfl
  | map es =>
    obtain ⟨h1, h2, h3⟩ := h
    simp only [valuesAt_one] at h1 h2 h3
    have e1 := req_congr_dec (d := text N true) (d' := text N false) fun v hv => text_isText (h1 v hv)
    have e2 := req_congr_dec (d := text N true) (d' := text N false) fun v hv => text_isText (h2 v hv)
    have e3 : opt "contraction-ratio" (text N true) es = opt "contraction-ratio" (text N false) es := by
      refine opt_congr_dec fun v hv => ?_
      rcases h3 v hv with h | rfl | rfl
      · exact orNull_congr_dec (text_isText h)
      · rfl
      · rfl
    unfold multiChContent closed
    dsimp only
    rw [e1, e2, e3]

theorem column_texts {N : Numbers} {c : Yaml} (h1 : ∀ q t, c = .scalar q t → IsText N c)
    (h2 : ∀ v ∈ valuesAt ["id"] c, IsText N v) : column N true c = column N false c := by
  cases c with
  | scalar q t =>
    have hk := (h1 q t rfl).kind
    simp [column, firstOf, List.findSome?, variant, names, List.find?, unitVariant, hk]
  | seq ys => rfl
  | map es =>
    rcases es with _ | ⟨⟨k, v⟩, _ | ⟨e, es⟩⟩
    · rfl
    · have hu : ∀ buf, unitVariant N buf "ignored" (.map [(k, v)]) = unitVariant N true "ignored" (.map [(k, v)]) := by
        intro buf
        cases v with
        | scalar q t => cases q <;> rfl
        | seq _ => rfl
        | map _ => rfl
      simp only [column, firstOf, List.findSome?, variant, names, List.find?, hu false]
      by_cases hk : k = "id".toList
      · rw [text_isText (h2 v (by simp [valuesAt, hk]))]
      · simp only [hk, if_false]
    · rw [column_two, column_two]

theorem mapM_congr {α β : Type} {f g : α → Option β} {l : List α} (h : ∀ x ∈ l, f x = g x) : l.mapM f = l.mapM g := by
  induction l with
  | nil => rfl
  | cons x l ih => rw [List.mapM_cons, List.mapM_cons, h x (by simp), ih fun y hy => h y (by simp [hy])]

theorem edgesInfo_texts {N : Numbers} {y : Yaml} (h : EdgesInfoTexts N y) :
    edgesInfoContent N true y = edgesInfoContent N false y := by
  cases y with
  | scalar q t => rfl
  | seq ys => rfl
  | map es =>
    obtain ⟨h1, h2⟩ := h
    simp only [valuesAt_one] at h1 h2
    have e1 := req_congr_dec (d := text N true) (d' := text N false) fun v hv => text_isText (h1 v hv)
    have e2 : req "ids" (vec (column N true)) es = req "ids" (vec (column N false)) es := by
      refine req_congr_dec fun v hv => ?_
      cases v with
      | scalar q t => rfl
      | map es => rfl
      | seq cols => exact mapM_congr fun c hc => column_texts (h2 cols hv c hc).1 (h2 cols hv c hc).2
    unfold edgesInfoContent closed
    dsimp only
    rw [e1, e2]

/-! ## Replacing parts -/

/-- Change the value of a key. -/
def change (k : String) (f : Yaml → Yaml) (es : Entries) : Entries :=
  es.map fun e => if e.1 = k.toList then (e.1, f e.2) else e

theorem values_change (k l : String) (f : Yaml → Yaml) (es : Entries) :
    values l (change k f es) = if l = k then (values l es).map f else values l es := by
  induction es with
  | nil => split <;> rfl
  | cons e es ih =>
    unfold change values at ih ⊢
    by_cases h1 : e.1 = k.toList
    · by_cases h2 : l = k
      · subst h2
        simp only [if_true] at ih
        simp [h1, ih]
      · have h3 : k.toList ≠ l.toList := fun hc => h2 (String.toList_inj.mp hc).symm
        simp only [h2, if_false] at ih ⊢
        simp [h1, ih, String.toList_inj, Ne.symm h2]
    · by_cases h2 : l = k
      · subst h2
        simp only [if_true] at ih
        simp [h1, ih]
      · simp only [h2, if_false] at ih ⊢
        by_cases h4 : e.1 = l.toList
        · simp [h4, ih, String.toList_inj, h2]
        · simp [h1, h4, ih]

theorem req_change_ne {α : Type} {k l : String} (d : Dec α) (f : Yaml → Yaml) (es : Entries) (h : l ≠ k) :
    req l d (change k f es) = req l d es := by
  unfold req
  rw [values_change, if_neg h]

theorem opt_change_ne {α : Type} {k l : String} (d : Dec α) (f : Yaml → Yaml) (es : Entries) (h : l ≠ k) :
    opt l d (change k f es) = opt l d es := by
  unfold opt
  rw [values_change, if_neg h]

theorem req_change {α : Type} {k : String} {d : Dec α} {f : Yaml → Yaml} {es : Entries} {a b : α}
    (h : req k d es = some a) (hf : ∀ v, d v = some a → d (f v) = some b) : req k d (change k f es) = some b := by
  obtain ⟨v, hv, hd⟩ := req_eq h
  unfold req
  rw [values_change, if_pos rfl, hv]
  exact hf v hd

theorem all_change (k : String) (f : Yaml → Yaml) (es : Entries) (known : List String) :
    ((change k f es).all fun e => known.any fun k => decide (e.1 = k.toList)) =
      es.all fun e => known.any fun k => decide (e.1 = k.toList) := by
  unfold change
  rw [List.all_map]
  congr 1
  funext e
  simp only [Function.comp_apply]
  split <;> rfl

theorem replaceAt_map (k : String) (ks : List String) (v : Yaml) (es : Entries) :
    replaceAt (k :: ks) v (.map es) = .map (change k (replaceAt ks v) es) := by
  simp only [replaceAt, change]

theorem replace_section {α : Type} {k : String} {ks : List String} {d : Dec α} {v doc : Yaml} {a b : α}
    (hf : ∀ y, d y = some a → d (replaceAt ks v y) = some b) (h : open_ (req k d) doc = some a) :
    open_ (req k d) (replaceAt (k :: ks) v doc) = some b := by
  cases doc with
  | scalar q t => cases h
  | seq ys => cases h
  | map es =>
    rw [replaceAt_map]
    exact req_change h hf

theorem balancing_replace_multiCh {N : Numbers} {v : Yaml} {m : MultiCh} (hm : multiChContent N true v = some m)
    {b : Balancing} (y : Yaml) (h : balancingContent N y = some b) :
    balancingContent N (replaceAt ["multi-ch-constructor"] v y) = some { b with multiCh := m } := by
  cases y with
  | scalar q t => cases h
  | seq ys => cases h
  | map es =>
    rw [replaceAt_map]
    unfold balancingContent closed at h ⊢
    dsimp only at h ⊢
    rw [all_change]
    split at h
    swap
    · cases h
    rename_i hall
    rw [if_pos hall]
    simp only [Option.bind_eq_bind, Option.bind_eq_some_iff] at h
    obtain ⟨a1, h1, a2, h2, a3, h3, a4, h4, mc, hmc, a6, h6, mo, hmo, ⟨a8, a9⟩, h8, a10, h10, a11, h11, a12, h12, hp⟩ := h
    obtain rfl := Option.some.inj hp
    rw [opt_change_ne _ _ _ (by decide), req_change_ne _ _ _ (by decide), req_change_ne _ _ _ (by decide),
      req_change_ne _ _ _ (by decide), req_change (f := replaceAt [] v) hmc (fun _ _ => hm), req_change_ne _ _ _ (by decide),
      req_change_ne _ _ _ (by decide), req_change_ne _ _ _ (by decide), opt_change_ne _ _ _ (by decide),
      opt_change_ne _ _ _ (by decide), opt_change_ne _ _ _ (by decide), h1, h2, h3, h4, h6, hmo, h8, h10, h11, h12]
    rfl

theorem monitoring_replace {N : Numbers} {v : Yaml} {m : EdgesInfo} (hm : edgesInfoContent N true v = some m)
    {b : Monitoring} (y : Yaml) (h : monitoring N y = some b) :
    monitoring N (replaceAt ["edges-info"] v y) = some { b with edgesInfo := m } := by
  cases y with
  | scalar q t => cases h
  | seq ys => cases h
  | map es =>
    rw [replaceAt_map]
    unfold monitoring closed at h ⊢
    dsimp only at h ⊢
    rw [all_change]
    split at h
    swap
    · cases h
    rename_i hall
    rw [if_pos hall]
    simp only [Option.bind_eq_bind, Option.bind_eq_some_iff] at h
    obtain ⟨a1, h1, a2, h2, hp⟩ := h
    obtain rfl := Option.some.inj hp
    rw [req_change (f := replaceAt [] v) h1 (fun _ _ => hm), opt_change_ne _ _ _ (by decide), h2]
    rfl

theorem balancing_replace_edgesInfo {N : Numbers} {v : Yaml} {m : EdgesInfo} (hm : edgesInfoContent N true v = some m)
    {b : Balancing} (y : Yaml) (h : balancingContent N y = some b) :
    balancingContent N (replaceAt ["monitoring", "edges-info"] v y) =
      some { b with monitoring := { b.monitoring with edgesInfo := m } } := by
  cases y with
  | scalar q t => cases h
  | seq ys => cases h
  | map es =>
    rw [replaceAt_map]
    unfold balancingContent closed at h ⊢
    dsimp only at h ⊢
    rw [all_change]
    split at h
    swap
    · cases h
    rename_i hall
    rw [if_pos hall]
    simp only [Option.bind_eq_bind, Option.bind_eq_some_iff] at h
    obtain ⟨a1, h1, a2, h2, a3, h3, a4, h4, mc, hmc, a6, h6, mo, hmo, ⟨a8, a9⟩, h8, a10, h10, a11, h11, a12, h12, hp⟩ := h
    obtain rfl := Option.some.inj hp
    rw [opt_change_ne _ _ _ (by decide), req_change_ne _ _ _ (by decide), req_change_ne _ _ _ (by decide),
      req_change_ne _ _ _ (by decide), req_change_ne _ _ _ (by decide), req_change_ne _ _ _ (by decide),
      req_change (f := replaceAt ["edges-info"] v) hmo (fun y hy => monitoring_replace hm y hy), req_change_ne _ _ _ (by decide),
      opt_change_ne _ _ _ (by decide), opt_change_ne _ _ _ (by decide), opt_change_ne _ _ _ (by decide),
      h1, h2, h3, h4, hmc, h6, h8, h10, h11, h12]
    rfl

end Verif.Yml
