import Verif.Model.AlignedGet
import Verif.Props.Nested

/-! # Lemmas about selecting from aligned tables -/

namespace Verif.AlignedGet
open Verif Verif.Nested List

/-- all columns of all tables under their two names, in order; the ids of the categories are columns named `id` -/
def wide (E : Env) (a : ATbl) : List ((String × String) × Col) :=
  (E a.main).cols.map (fun c => ((a.name, c.1), c.2)) ++
    a.cats.flatMap fun p => ((p.1, "id"), .plain (E p.2).ids) :: (E p.2).cols.map fun c => ((p.1, c.1), c.2)

/-- the same without the ids of the categories -/
def wideNoIds (E : Env) (a : ATbl) : List ((String × String) × Col) :=
  (E a.main).cols.map (fun c => ((a.name, c.1), c.2)) ++
    a.cats.flatMap fun p => (E p.2).cols.map fun c => ((p.1, c.1), c.2)

/-- An aligned table as `__init__` and `add_category` leave it: the categories are as long as the main table. -/
def Aligned (E : Env) (a : ATbl) : Prop := ∀ p ∈ a.cats, (E p.2).ids.length = (E a.main).ids.length

/-- columns `ds` of a frame show the rows `rs` of columns `cs`, `R` saying what a cell should be -/
def ColsShow {κ : Type} (R : Col → Nat → Cell → Prop) (rs : List Nat) (cs : List (κ × Col)) (ds : List (κ × List Cell)) : Prop :=
  Forall₂ (fun c d => d.1 = c.1 ∧ Forall₂ (R c.2) rs d.2) cs ds

/-- the frame shows the rows `rs` of the table -/
def FrameShows (R : Col → Nat → Cell → Prop) (rs : List Nat) (t : Tbl) (f : Frame) : Prop :=
  Forall₂ (fun r i => t.ids[r]? = some i) rs f.ids ∧ ColsShow R rs t.cols f.cols

theorem tag_show {R : Col → Nat → Cell → Prop} {rs : List Nat} {cs : List (String × Col)} {ds : List (String × List Cell)}
    (nm : String) (h : ColsShow R rs cs ds) : ColsShow R rs (cs.map fun c => ((nm, c.1), c.2)) (tag nm ds) := by
  unfold ColsShow tag at *
  rw [forall₂_map_left_iff, forall₂_map_right_iff]
  refine h.imp ?_
  rintro c d ⟨h1, h2⟩
  exact ⟨by rw [h1], h2⟩

theorem ids_show {R : Col → Nat → Cell → Prop} (hR : ∀ d r v, d[r]? = some v → R (.plain d) r (.val v)) {rs : List Nat}
    {ids l : List Int} (h : Forall₂ (fun r i => ids[r]? = some i) rs l) : Forall₂ (R (.plain ids)) rs (l.map .val) := by
  rw [forall₂_map_right_iff]
  exact h.imp fun r i hi => hR _ _ _ hi

theorem resetIndex_ok {f : Frame} {cols : List (String × List Cell)} (h : resetIndex f = .ok cols) :
    cols = ("id", f.ids.map .val) :: f.cols := by
  unfold resetIndex at h
  split at h
  · cases h
  · cases h; rfl

theorem colsShow_flatten {κ α : Type} {R : Col → Nat → Cell → Prop} {rs : List Nat} {f : α → List (κ × Col)} {l : List α}
    {ls : List (List (κ × List Cell))} (h : Forall₂ (fun p d => ColsShow R rs (f p) d) l ls) :
    ColsShow R rs (l.flatMap f) ls.flatten := by
  induction h with
  | nil => exact .nil
  | cons h _ ih => exact rel_append h ih

theorem forall₂_trans_mid {α β γ : Type} {R : α → β → Prop} {S : β → γ → Prop} {T : α → γ → Prop} {as : List α} {bs : List β}
    {cs : List γ} (h : Forall₂ R as bs) (h' : Forall₂ S bs cs) (ht : ∀ a b c, R a b → S b c → T a c) : Forall₂ T as cs := by
  induction h generalizing cs with
  | nil => cases h'; exact .nil
  | cons h1 _ ih => cases h' with | cons h2 h3 => exact .cons (ht _ _ _ h1 h2) (ih h3)

/-- the frame made of the frames of all tables -/
theorem concat_show {E : Env} {a : ATbl} {R : Col → Nat → Cell → Prop}
    (hR : ∀ d r v, d[r]? = some v → R (.plain d) r (.val v)) {rs : List Nat} {m : Frame} {fs : List (String × Frame)} {j : Joined}
    (hm : FrameShows R rs (E a.main) m) (hc : Forall₂ (fun p q => q.1 = p.1 ∧ FrameShows R rs (E p.2) q.2) a.cats fs)
    (h : concat a.name m fs = .ok j) : j.ids = m.ids ∧ ColsShow R rs (wide E a) j.cols := by
  unfold concat at h
  split at h
  · cases h
  · cases h1 : resetIndex m with
    | error e => rw [h1] at h; cases h
    | ok cols =>
      rw [h1] at h
      cases h2 : mapE (catCols m.ids.length) fs with
      | error e => rw [h2] at h; cases h
      | ok ls =>
        rw [h2] at h
        cases h
        refine ⟨rfl, ?_⟩
        refine rel_append (tag_show a.name hm.2) (colsShow_flatten ?_)
        refine forall₂_trans_mid hc (mapE_ok_iff.1 h2) ?_
        rintro p q l ⟨e1, e2, e3⟩ hl
        unfold catCols at hl
        split at hl
        · cases hl
        · cases h3 : resetIndex q.2 with
          | error e => rw [h3] at hl; cases hl
          | ok cols' =>
            rw [h3] at hl
            cases hl
            rw [resetIndex_ok h3]
            exact .cons ⟨by rw [e1], ids_show hR e2⟩ (e1 ▸ tag_show _ e3)

theorem catFrames_ok {get : Nat → Except Err Frame} {cats : Dict String Nat} {fs : List (String × Frame)} :
    catFrames get cats = .ok fs ↔ Forall₂ (fun p q => q.1 = p.1 ∧ get p.2 = .ok q.2) cats fs := by
  unfold catFrames
  rw [mapE_ok_iff]
  constructor
  · intro h
    refine h.imp ?_
    intro p q hq
    cases hp : get p.2 with
    | error e => rw [hp] at hq; cases hq
    | ok f => rw [hp] at hq; cases hq; exact ⟨rfl, rfl⟩
  · intro h
    refine h.imp ?_
    rintro p q ⟨h1, h2⟩
    rw [h2, ← h1]

theorem getIndex_shows {E : Env} (hE : Rect E) {t : Nat} {sel : Sel} {f : Frame} (h : getIndex (E t) sel = .ok f) :
    ∃ rs, SelRows (E t).ids.length sel rs ∧ FrameShows NumberIs rs (E t) f := C191_numbers E hE t sel f h

/-- `table[rows]` -/
theorem rowsAt_show {E : Env} (hE : Rect E) {a : ATbl} (hA : Aligned E a) {sel : Sel} {j : Joined} (h : rowsAt E a sel = .ok j) :
    ∃ rs, SelRows (E a.main).ids.length sel rs ∧ Forall₂ (fun r i => (E a.main).ids[r]? = some i) rs j.ids ∧
      ColsShow NumberIs rs (wide E a) j.cols := by
  unfold rowsAt at h
  cases h1 : getIndex (E a.main) sel with
  | error e => rw [h1] at h; cases h
  | ok m =>
    rw [h1] at h
    cases h2 : catFrames (fun t => getIndex (E t) sel) a.cats with
    | error e => rw [h2] at h; cases h
    | ok fs =>
      rw [h2] at h
      obtain ⟨rs, hs, hm⟩ := getIndex_shows hE h1
      obtain ⟨e1, e2⟩ := concat_show (R := NumberIs) (fun d r v hv => ⟨v, hv, rfl⟩) hm (by
        refine forall₂_mem_imp (catFrames_ok.1 h2) ?_
        rintro p hp q ⟨hq1, hq2⟩
        obtain ⟨ss, hs', hf⟩ := getIndex_shows hE hq2
        rw [hA p hp] at hs'
        rw [hs.unique hs']
        exact ⟨hq1, hf⟩) h
      exact ⟨rs, hs, e1 ▸ hm.1, e2⟩

theorem ids_all {ids l : List Int} (h : Forall₂ (fun r i => ids[r]? = some i) (List.range ids.length) l) : l = ids := by
  refine List.ext_getElem? fun k => ?_
  by_cases hk : k < ids.length
  · have hk' : (List.range ids.length)[k]? = some k := List.getElem?_range hk
    obtain ⟨b, hb, hR⟩ := forall₂_getElem?' h hk'
    rw [hb, hR]
  · rw [List.getElem?_eq_none (by rw [← h.length_eq]; simpa using hk), List.getElem?_eq_none (by simpa using hk)]

theorem toDataframe_shows' {E : Env} (hE : Rect E) {n t : Nat} {f : Frame} (h : toDataframe E (n + 1) t = .ok f) :
    FrameShows (CellIs E (Shows E n)) (List.range (E t).ids.length) (E t) f := toDataframe_shows hE h

/-- `to_dataframe()` -/
theorem toDataframeA_show {E : Env} (hE : Rect E) {a : ATbl} (hA : Aligned E a) {n : Nat} {j : Joined}
    (h : toDataframeA E (n + 1) a false = .ok j) :
    j.ids = (E a.main).ids ∧ ColsShow (CellIs E (Shows E n)) (List.range (E a.main).ids.length) (wide E a) j.cols := by
  unfold toDataframeA at h
  cases h1 : toDataframe E (n + 1) a.main with
  | error e => rw [h1] at h; cases h
  | ok m =>
    rw [h1] at h
    cases h2 : catFrames (fun t => toDataframe E (n + 1) t) a.cats with
    | error e => rw [h2] at h; cases h
    | ok fs =>
      rw [h2] at h
      have hm := toDataframe_shows' hE h1
      obtain ⟨e1, e2⟩ := concat_show (R := CellIs E (Shows E n)) (fun d r v hv => ⟨v, hv, rfl⟩) hm (by
        refine forall₂_mem_imp (catFrames_ok.1 h2) ?_
        rintro p hp q ⟨hq1, hq2⟩
        have := toDataframe_shows' hE hq2
        rw [hA p hp] at this
        exact ⟨hq1, this⟩) h
      exact ⟨e1 ▸ ids_all hm.1, e2⟩

/-- the position of the row labelled `r` -/
def labelled (ids : List Int) (len : Nat) : List Nat := (List.range len).map fun r : Nat => ids.idxOf (r : Int)

/-- `to_dataframe(ignore_category_ids=True)`: row `r` shows row `r` of the main table and of each category the row whose
id is `r` -/
theorem toDataframeA_labels {E : Env} (hE : Rect E) {a : ATbl} (hA : Aligned E a) {n : Nat} {j : Joined}
    (h : toDataframeA E (n + 1) a true = .ok j) :
    j.ids = (E a.main).ids ∧ ∃ dm ds, j.cols = dm ++ List.flatten ds ∧
      ColsShow (CellIs E (Shows E n)) (List.range (E a.main).ids.length)
        ((E a.main).cols.map fun c => ((a.name, c.1), c.2)) dm ∧
      Forall₂ (fun p d => (∀ r < (E a.main).ids.length, (r : Int) ∈ (E p.2).ids) ∧
        ColsShow (CellIs E (Shows E n)) (labelled (E p.2).ids (E a.main).ids.length)
          ((E p.2).cols.map fun c => ((p.1, c.1), c.2)) d) a.cats ds := by
  unfold toDataframeA at h
  cases h1 : toDataframe E (n + 1) a.main with
  | error e => rw [h1] at h; cases h
  | ok m =>
    rw [h1] at h
    cases h2 : catFrames (fun t => toDataframe E (n + 1) t) a.cats with
    | error e => rw [h2] at h; cases h
    | ok fs =>
      rw [h2] at h
      have hm := toDataframe_shows' hE h1
      have hml : m.ids = (E a.main).ids := ids_all hm.1
      simp only [if_true] at h
      split at h
      · cases h
      · cases h3 : resetIndex m with
        | error e => rw [h3] at h; cases h
        | ok cols =>
          rw [h3] at h
          cases h4 : mapE (catColsByLabel m.ids.length) fs with
          | error e => rw [h4] at h; cases h
          | ok ls =>
            rw [h4] at h
            cases h
            refine ⟨hml, _, _, rfl, tag_show _ hm.2, ?_⟩
            refine forall₂_trans_mid (forall₂_mem_imp (S := fun p q => q.1 = p.1 ∧ (E p.2).ids.length = (E a.main).ids.length ∧
              Shows E (n + 1) p.2 (List.range (E a.main).ids.length) q.2) (catFrames_ok.1 h2) ?_) (mapE_ok_iff.1 h4) ?_
            · rintro p hp q ⟨hq1, hq2⟩
              have := toDataframe_shows hE hq2
              rw [hA p hp] at this
              exact ⟨hq1, hA p hp, this⟩
            · rintro p q l ⟨e1, e0, e2⟩ hl
              have hq : q.2.ids = (E p.2).ids := ids_all (by have := e2.1; rw [← e0] at this; exact this)
              unfold catColsByLabel at hl
              split at hl
              · cases hl
              · rename_i hcond
                rw [not_or] at hcond
                have hall : ∀ r < (E a.main).ids.length, (r : Int) ∈ (E p.2).ids := by
                  intro r hr
                  have := hcond.2
                  rw [Bool.not_eq_true, List.any_eq_false] at this
                  have := this r (List.mem_range.2 (by rw [hml]; exact hr))
                  simpa [hq] using this
                cases h5 : aligned m.ids.length q.2 with
                | error e => rw [h5] at hl; cases hl
                | ok f =>
                  rw [h5] at hl
                  cases hl
                  refine ⟨hall, ?_⟩
                  rw [e1]
                  refine tag_show _ ?_
                  unfold aligned at h5
                  rw [hq, hml] at h5
                  refine (iloc_shows (ks := labelled (E p.2).ids (E a.main).ids.length) e2 ?_ h5).2
                  unfold labelled
                  rw [forall₂_map_left_iff, forall₂_map_right_iff, forall₂_same]
                  intro r hr
                  rw [List.getElem?_range]
                  rw [← e0]
                  exact List.idxOf_lt_length_of_mem (hall r (List.mem_range.1 hr))

/-! ## when there is a frame -/

/-- No category has the name of the main table, no column is named `id`, and no two categories have the same name. -/
structure Named (E : Env) (a : ATbl) : Prop where
  cat : ∀ p ∈ a.cats, p.1 ≠ a.name
  main : ∀ c ∈ (E a.main).cols, c.1 ≠ "id"
  cols : ∀ p ∈ a.cats, ∀ c ∈ (E p.2).cols, c.1 ≠ "id"
  nodup : (Dict.keys a.cats).Nodup

/-- the columns are values or regions, none is ragged -/
def Flat (t : Tbl) : Prop := ∀ c ∈ t.cols, (∃ d, c.2 = .plain d) ∨ ∃ d t', c.2 = .region d t'

theorem inRange_imp {len : Nat} {p q : Prop} (h : p → q) {sel : Sel} (hr : InRange len p sel) : InRange len q sel := by
  cases sel with
  | int i => exact hr
  | list is => exact ⟨hr.1, hr.2.imp_left h⟩
  | slice s => obtain ⟨is, h1, h2⟩ := hr; exact ⟨is, h1, h2.imp_left h⟩

theorem frameShows_names {R : Col → Nat → Cell → Prop} {rs : List Nat} {t : Tbl} {f : Frame} (h : FrameShows R rs t f) :
    f.cols.map (·.1) = t.cols.map (·.1) := by
  have h2 := h.2
  unfold ColsShow at h2
  generalize f.cols = ds at h2
  generalize t.cols = cs at h2
  induction h2 with
  | nil => rfl
  | cons h1 _ ih => simp only [List.map_cons, h1.1, ih]

theorem resetIndex_total {R : Col → Nat → Cell → Prop} {rs : List Nat} {t : Tbl} {f : Frame} (h : FrameShows R rs t f)
    (hn : ∀ c ∈ t.cols, c.1 ≠ "id") : resetIndex f = .ok (("id", f.ids.map .val) :: f.cols) := by
  unfold resetIndex
  rw [if_neg]
  intro hc
  obtain ⟨c, hc1, hc2⟩ := List.any_eq_true.1 hc
  have : "id" ∈ f.cols.map (·.1) := List.mem_map.2 ⟨c, hc1, by simpa using hc2⟩
  rw [frameShows_names h] at this
  obtain ⟨c', h1, h2⟩ := List.mem_map.1 this
  exact hn c' h1 h2

theorem concat_total {E : Env} {a : ATbl} {R : Col → Nat → Cell → Prop} (hN : Named E a) {rs : List Nat} {m : Frame}
    {fs : List (String × Frame)} (hm : FrameShows R rs (E a.main) m)
    (hc : Forall₂ (fun p q => q.1 = p.1 ∧ FrameShows R rs (E p.2) q.2) a.cats fs) : ∃ j, concat a.name m fs = .ok j := by
  unfold concat
  rw [if_neg, resetIndex_total hm hN.main]
  · have : ∃ ls, mapE (catCols m.ids.length) fs = .ok ls := by
      refine mapE_total fun q hq => ?_
      obtain ⟨k, hk⟩ := List.mem_iff_getElem?.1 hq
      obtain ⟨p, hp, e1, e2⟩ := forall₂_getElem? hc hk
      unfold catCols
      rw [if_neg, resetIndex_total e2 (hN.cols p (List.mem_of_getElem? hp))]
      · exact ⟨_, rfl⟩
      · simp only [ne_eq, Decidable.not_not]
        rw [← e2.1.length_eq, hm.1.length_eq]
    obtain ⟨ls, hls⟩ := this
    simp only [hls]
    exact ⟨_, rfl⟩
  · intro h
    obtain ⟨q, hq, he⟩ := List.any_eq_true.1 h
    obtain ⟨k, hk⟩ := List.mem_iff_getElem?.1 hq
    obtain ⟨p, hp, e1, _⟩ := forall₂_getElem? hc hk
    exact hN.cat p (List.mem_of_getElem? hp) (by rw [← e1]; simpa using he)

theorem catFrames_total {get : Nat → Except Err Frame} {cats : Dict String Nat} (h : ∀ p ∈ cats, ∃ f, get p.2 = .ok f) :
    ∃ fs, catFrames get cats = .ok fs := by
  unfold catFrames
  refine mapE_total fun p hp => ?_
  obtain ⟨f, hf⟩ := h p hp
  exact ⟨_, by rw [hf]⟩

theorem rowsAt_total {E : Env} (hE : Rect E) {a : ATbl} (hA : Aligned E a) (hN : Named E a) {sel : Sel}
    (hr : InRange (E a.main).ids.length (Flat (E a.main) ∧ ∀ p ∈ a.cats, Flat (E p.2)) sel) : ∃ j, rowsAt E a sel = .ok j := by
  obtain ⟨m, hm⟩ := C191_total E hE a.main sel (inRange_imp (fun h => h.1) hr)
  have : ∀ p ∈ a.cats, ∃ f, getIndex (E p.2) sel = .ok f := fun p hp =>
    C191_total E hE p.2 sel ((hA p hp).symm ▸ inRange_imp (fun h => h.2 p hp) hr)
  obtain ⟨fs, hfs⟩ := catFrames_total (get := fun t => getIndex (E t) sel) this
  unfold rowsAt
  rw [hm, hfs]
  obtain ⟨rs, hs, hm'⟩ := getIndex_shows hE hm
  refine concat_total hN hm' ?_
  refine forall₂_mem_imp (catFrames_ok.1 hfs) ?_
  rintro p hp q ⟨hq1, hq2⟩
  obtain ⟨ss, hs', hf⟩ := getIndex_shows hE hq2
  rw [hA p hp] at hs'
  rw [hs.unique hs']
  exact ⟨hq1, hf⟩

theorem toDataframeA_total {E : Env} (hE : Rect E) {a : ATbl} (hA : Aligned E a) (hN : Named E a) {n : Nat}
    (hm : ∃ f, toDataframe E (n + 1) a.main = .ok f) (hc : ∀ p ∈ a.cats, ∃ f, toDataframe E (n + 1) p.2 = .ok f) :
    ∃ j, toDataframeA E (n + 1) a false = .ok j := by
  obtain ⟨m, hm⟩ := hm
  obtain ⟨fs, hfs⟩ := catFrames_total (get := fun t => toDataframe E (n + 1) t) hc
  unfold toDataframeA
  rw [hm, hfs]
  refine concat_total hN (toDataframe_shows' hE hm) ?_
  refine forall₂_mem_imp (catFrames_ok.1 hfs) ?_
  rintro p hp q ⟨hq1, hq2⟩
  have := toDataframe_shows' hE hq2
  rw [hA p hp] at this
  exact ⟨hq1, this⟩

/-! ## looking columns up -/

/-- the column under two names: of the main table under its name, of a category, or the ids of a category -/
def colAt (E : Env) (a : ATbl) (cat col : String) : Option Col :=
  if cat = a.name then colOf (E a.main) col
  else match Dict.get? a.cats cat with
    | none => none
    | some t => if col = "id" then some (.plain (E t).ids) else colOf (E t) col

theorem find?_show {κ : Type} [DecidableEq κ] {R : Col → Nat → Cell → Prop} {rs : List Nat} {cs : List (κ × Col)}
    {ds : List (κ × List Cell)} (h : ColsShow R rs cs ds) {k : κ} {c : κ × Col} (hc : cs.find? (fun c => c.1 = k) = some c) :
    ∃ d, ds.find? (fun d => d.1 = k) = some (k, d) ∧ Forall₂ (R c.2) rs d := by
  unfold ColsShow at h
  induction h with
  | nil => cases hc
  | @cons c' d cs ds h1 _ ih =>
    by_cases hk : c'.1 = k
    · rw [List.find?_cons_of_pos (by simpa using hk)] at hc
      cases hc
      refine ⟨d.2, ?_, h1.2⟩
      rw [List.find?_cons_of_pos (by simpa [h1.1] using hk), ← hk, ← h1.1]
    · rw [List.find?_cons_of_neg (by simpa using hk)] at hc
      rw [List.find?_cons_of_neg (by simpa [h1.1] using hk)]
      exact ih hc

theorem find?_tag (nm : String) (cs : List (String × Col)) (cat col : String) :
    (cs.map fun c => ((nm, c.1), c.2)).find? (fun c => c.1 = (cat, col)) =
      if nm = cat then (cs.find? fun c => c.1 = col).map (fun c => ((nm, c.1), c.2)) else none := by
  induction cs with
  | nil => simp
  | cons c cs ih =>
    by_cases h1 : nm = cat
    · subst h1
      by_cases h2 : c.1 = col
      · simp [h2]
      · simp only [List.map_cons, if_true] at ih ⊢
        rw [List.find?_cons_of_neg (by simpa using h2), List.find?_cons_of_neg (by simpa using h2)]
        exact ih
    · simp only [List.map_cons, h1, if_false] at ih ⊢
      rw [List.find?_cons_of_neg (by simp [h1])]
      exact ih

theorem wide_find? {E : Env} {a : ATbl} (hN : Named E a) {cat col : String} {c : Col} (h : colAt E a cat col = some c) :
    (wide E a).find? (fun c => c.1 = (cat, col)) = some ((cat, col), c) := by
  unfold colAt at h
  unfold wide
  rw [List.find?_append, find?_tag]
  by_cases hc : cat = a.name
  · subst hc
    simp only [if_true] at h ⊢
    unfold colOf at h
    obtain ⟨c', h1, rfl⟩ := Option.map_eq_some_iff.1 h
    have := List.find?_some h1
    simp only [decide_eq_true_eq] at this
    rw [h1, Option.map_some, this]; rfl
  · rw [if_neg (fun e => hc e.symm)]
    rw [if_neg hc] at h
    simp only [Option.none_or]
    have hcols := hN.cols
    generalize a.cats = cats at h hcols
    induction cats with
    | nil => cases h
    | cons p cats ih =>
      obtain ⟨k, t⟩ := p
      simp only [List.flatMap_cons, List.cons_append]
      by_cases hk : k = cat
      · subst hk
        rw [show Dict.get? ((k, t) :: cats) k = some t by simp [Dict.get?]] at h
        simp only at h
        by_cases hid : col = "id"
        · subst hid
          simp only [if_true, Option.some.injEq] at h
          rw [List.find?_cons_of_pos (by simp), h]
        · rw [if_neg hid] at h
          rw [List.find?_cons_of_neg (by simpa using fun e => hid e.symm), List.find?_append, find?_tag, if_pos rfl]
          unfold colOf at h
          obtain ⟨c', h1, rfl⟩ := Option.map_eq_some_iff.1 h
          have := List.find?_some h1
          simp only [decide_eq_true_eq] at this
          rw [h1, Option.map_some, this]; rfl
      · rw [show Dict.get? ((k, t) :: cats) cat = Dict.get? cats cat by simp [Dict.get?, hk]] at h
        rw [List.find?_cons_of_neg (by simp [hk]), List.find?_append, find?_tag, if_neg hk, Option.none_or]
        exact ih h fun p hp => hcols p (List.mem_cons_of_mem _ hp)

/-! ## the columns of one table -/

theorem filter_show {κ : Type} {R : Col → Nat → Cell → Prop} {rs : List Nat} {cs : List (κ × Col)} {ds : List (κ × List Cell)}
    (h : ColsShow R rs cs ds) (p : κ → Bool) : ColsShow R rs (cs.filter fun c => p c.1) (ds.filter fun d => p d.1) := by
  unfold ColsShow at *
  induction h with
  | nil => exact .nil
  | @cons c d cs ds h1 _ ih =>
    rw [List.filter_cons, List.filter_cons, h1.1]
    split
    · exact .cons h1 ih
    · exact ih

theorem untag_show {R : Col → Nat → Cell → Prop} {rs : List Nat} {cat : String} {cs : List (String × Col)}
    {ds : List ((String × String) × List Cell)} (h : ColsShow R rs (cs.map fun c => ((cat, c.1), c.2)) ds) :
    ColsShow R rs cs (ds.map fun d => (d.1.2, d.2)) := by
  unfold ColsShow at *
  rw [forall₂_map_right_iff]
  rw [forall₂_map_left_iff] at h
  refine h.imp ?_
  rintro c d ⟨h1, h2⟩
  exact ⟨by rw [h1], h2⟩

theorem filter_tag (nm cat : String) (cs : List (String × Col)) :
    (cs.map fun c => ((nm, c.1), c.2)).filter (fun c => c.1.1 = cat) =
      if nm = cat then cs.map fun c => ((nm, c.1), c.2) else [] := by
  induction cs with
  | nil => simp
  | cons c cs ih =>
    rw [List.map_cons, List.filter_cons, ih]
    by_cases h : nm = cat <;> simp [h]

theorem wide_filter_cat {E : Env} {a : ATbl} (hN : Named E a) {cat : String} {t : Nat} (h : Dict.get? a.cats cat = some t) :
    (wide E a).filter (fun c => c.1.1 = cat) =
      ((("id", .plain (E t).ids) :: (E t).cols : List (String × Col)).map fun c => ((cat, c.1), c.2)) := by
  have hne : cat ≠ a.name := hN.cat _ (Dict.mem_of_get? h)
  unfold wide
  rw [List.filter_append, filter_tag, if_neg (fun e => hne e.symm), List.nil_append]
  have hnd := hN.nodup
  generalize a.cats = cats at h hnd
  have hrest : ∀ (l : Dict String Nat), cat ∉ Dict.keys l → (l.flatMap fun p => (((p.1, "id"), .plain (E p.2).ids) ::
      (E p.2).cols.map fun c => ((p.1, c.1), c.2) : List ((String × String) × Col))).filter (fun c => c.1.1 = cat) = [] := by
    intro l hl
    rw [List.filter_eq_nil_iff]
    intro c hc
    obtain ⟨p, hp, hc⟩ := List.mem_flatMap.1 hc
    have : c.1.1 = p.1 := by
      rcases List.mem_cons.1 hc with rfl | hc
      · rfl
      · obtain ⟨_, _, rfl⟩ := List.mem_map.1 hc; rfl
    simp only [decide_eq_true_eq]
    rintro rfl
    exact hl (this ▸ Dict.mem_keys_of_mem hp)
  induction cats with
  | nil => cases h
  | cons p cats ih =>
    obtain ⟨k, t'⟩ := p
    have hnd' : k ∉ Dict.keys cats ∧ (Dict.keys cats).Nodup := List.nodup_cons.1 hnd
    rw [List.flatMap_cons, List.filter_append]
    by_cases hk : k = cat
    · subst hk
      rw [show Dict.get? ((k, t') :: cats) k = some t' by simp [Dict.get?]] at h
      cases h
      rw [hrest cats hnd'.1, List.append_nil, List.filter_cons, filter_tag]
      simp
    · rw [show Dict.get? ((k, t') :: cats) cat = Dict.get? cats cat by simp [Dict.get?, hk]] at h
      rw [List.filter_cons, filter_tag, if_neg hk]
      simp only [hk, decide_false, Bool.false_eq_true, if_false, List.nil_append]
      exact ih h hnd'.2

theorem wide_filter_main {E : Env} {a : ATbl} (hN : Named E a) :
    (wide E a).filter (fun c => c.1.1 = a.name) = (E a.main).cols.map fun c => ((a.name, c.1), c.2) := by
  unfold wide
  rw [List.filter_append, filter_tag, if_pos rfl]
  conv_rhs => rw [← List.append_nil ((E a.main).cols.map fun c => ((a.name, c.1), c.2))]
  congr 1
  rw [List.filter_eq_nil_iff]
  intro c hc
  obtain ⟨p, hp, hc⟩ := List.mem_flatMap.1 hc
  have : c.1.1 = p.1 := by
    rcases List.mem_cons.1 hc with rfl | hc
    · rfl
    · obtain ⟨_, _, rfl⟩ := List.mem_map.1 hc; rfl
  simp only [decide_eq_true_eq]
  intro e
  exact hN.cat p hp (this ▸ e)

theorem numberIs_unique {c : Col} {r : Nat} {x y : Cell} (h : NumberIs c r x) (h' : NumberIs c r y) : x = y := by
  cases c with
  | plain d => obtain ⟨v, h1, rfl⟩ := h; obtain ⟨w, h2, rfl⟩ := h'; rw [h1] at h2; cases h2; rfl
  | ragged i d => rw [h.2, h'.2]
  | region d t => obtain ⟨v, h1, rfl⟩ := h; obtain ⟨w, h2, rfl⟩ := h'; rw [h1] at h2; cases h2; rfl
  | raggedRegion i d t => rw [h.2, h'.2]

theorem colsShow_unique {κ : Type} {rs : List Nat} {cs : List (κ × Col)} {ds es : List (κ × List Cell)}
    (h : ColsShow NumberIs rs cs ds) (h' : ColsShow NumberIs rs cs es) : ds = es := by
  refine forall₂_unique h h' ?_
  rintro c d e ⟨h1, h2⟩ ⟨h3, h4⟩
  exact Prod.ext (h1.trans h3.symm) (forall₂_unique h2 h4 fun r x y hx hy => numberIs_unique hx hy)

end Verif.AlignedGet
