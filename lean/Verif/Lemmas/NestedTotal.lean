import Verif.Lemmas.Nested

/-! # Frames of nested tables: uniqueness, when there is one, and when there is none -/

namespace Verif.Nested
open Verif List

theorem forall₂_unique {α β : Type} {R S : α → β → Prop} {as : List α} {bs cs : List β} (h : Forall₂ R as bs)
    (h' : Forall₂ S as cs) (hu : ∀ a b c, R a b → S a c → b = c) : bs = cs := by
  have := forall₂_trans' (T := fun a b => a = b) h h' hu
  exact forall₂_eq_eq_eq ▸ this

theorem forall₂_single {α β : Type} {R : α → β → Prop} {a : α} {b : β} (h : Forall₂ R [a] [b]) : R a b := by
  cases h; assumption

/-- a frame is determined by the table and the rows it shows -/
theorem Shows.unique {E : Env} : ∀ {n m t : Nat} {rs : List Nat} {f g : Frame}, Shows E n t rs f → Shows E m t rs g → f = g
  | 0, _, _, _, _, _, h, _ => h.elim
  | _ + 1, 0, _, _, _, _, _, h' => h'.elim
  | n + 1, m + 1, t, rs, f, g, ⟨h1, h2⟩, ⟨h1', h2'⟩ => by
    have e1 : f.ids = g.ids := forall₂_unique h1 h1' fun a b c x y => by rw [x] at y; exact Option.some.inj y
    have e2 : f.cols = g.cols := by
      refine forall₂_unique h2 h2' ?_
      rintro c d d' ⟨hn, hd⟩ ⟨hn', hd'⟩
      refine Prod.ext (hn.trans hn'.symm) (forall₂_unique hd hd' ?_)
      intro r x y hx hy
      obtain ⟨nm, col⟩ := c
      cases col with
      | plain data =>
        obtain ⟨v, hv, rfl⟩ := hx
        obtain ⟨w, hw, rfl⟩ := hy
        rw [hv] at hw; cases hw; rfl
      | ragged idx data => rw [hx.2, hy.2]
      | region data t' =>
        obtain ⟨v, k, f', hv, hk, hf, rfl⟩ := hx
        obtain ⟨w, l, g', hw, hl, hg, rfl⟩ := hy
        have : v = w := by rw [hv] at hw; exact Option.some.inj hw
        subst this
        have : k = l := by rw [hk] at hl; exact Option.some.inj hl
        subst this
        rw [Shows.unique hf hg]
      | raggedRegion idx data t' =>
        obtain ⟨_, ks, f', hk, hf, rfl⟩ := hx
        obtain ⟨_, ls, g', hl, hg, rfl⟩ := hy
        have : ks = ls := forall₂_unique hk hl fun a b c x y => by rw [x] at y; exact Option.some.inj y
        subst this
        rw [Shows.unique hf hg]
    cases f; cases g; cases e1; cases e2; rfl

theorem SelRows.unique {len : Nat} {arg : Sel} {rs ss : List Nat} (h : SelRows len arg rs) (h' : SelRows len arg ss) :
    rs = ss := by
  cases arg with
  | int i =>
    obtain ⟨k, hk, rfl⟩ := h
    obtain ⟨l, hl, rfl⟩ := h'
    rw [hk] at hl; cases hl; rfl
  | list is => exact forall₂_unique h h' fun a b c x y => by rw [x] at y; exact Option.some.inj y
  | slice s =>
    obtain ⟨is, hi, rfl⟩ := h
    obtain ⟨js, hj, rfl⟩ := h'
    rw [hi] at hj; cases hj; rfl

/-! ## when there is a frame -/

/-- Tables of which all rows can be shown: the entries of the regions are numbers of rows of their tables, the tables
referred to are of lower rank (no table refers to itself, directly or through others), and no cell of a ragged region is
empty, unless the table it refers to is in the set `S`.  The tables in `S` have no ragged columns, nor have the tables
their regions refer to. -/
structure WF (E : Env) (rank : Nat → Nat) (S : Nat → Prop) : Prop where
  rect : Rect E
  flat : ∀ t, S t → ∀ c ∈ (E t).cols, (∃ d, c.2 = .plain d) ∨ ∃ d t', c.2 = .region d t' ∧ S t'
  region : ∀ t, ∀ c ∈ (E t).cols, ∀ d t', c.2 = .region d t' →
    rank t' < rank t ∧ ∀ v ∈ d, 0 ≤ v ∧ v < (E t').ids.length
  ragged : ∀ t, ∀ c ∈ (E t).cols, ∀ idx d t', c.2 = .raggedRegion idx d t' →
    rank t' < rank t ∧ (∀ v ∈ d, 0 ≤ v ∧ v < (E t').ids.length) ∧ (S t' ∨ ∀ r < idx.length, seg idx d r ≠ [])

/-- the selection is of existing rows, counted from the start -/
def InRange (len : Nat) (ne : Prop) : Sel → Prop
  | .int i => 0 ≤ i ∧ i < len
  | .list is => (∀ i ∈ is, 0 ≤ i ∧ i < len) ∧ (ne ∨ is ≠ [])
  | .slice s => ∃ is, s.range len = .ok is ∧ (ne ∨ is ≠ [])

theorem mapE_pyGet_total {α : Type} {l : List α} {is : List Int} (h : ∀ i ∈ is, 0 ≤ i ∧ i < l.length) :
    ∃ vs, mapE (pyGet l) is = .ok vs := by
  refine mapE_total fun i hi => ?_
  obtain ⟨h0, h1⟩ := h i hi
  obtain ⟨k, rfl⟩ := Int.eq_ofNat_of_zero_le h0
  exact ⟨l[k]'(by omega), pyGet_nat.2 (List.getElem?_eq_getElem (by omega))⟩

theorem mapE_pick_total {α : Type} {l : List α} {pos : List Nat} (h : ∀ p ∈ pos, p < l.length) :
    ∃ vs, mapE (fun p : Nat => pyGet l (p : Int)) pos = .ok vs :=
  mapE_total fun p hp => ⟨l[p]'(h p hp), pyGet_nat.2 (List.getElem?_eq_getElem (h p hp))⟩

theorem mem_of_mapE_pyGet {α : Type} {l : List α} {is : List Int} {vs : List α} (h : mapE (pyGet l) is = .ok vs) :
    ∀ v ∈ vs, v ∈ l := by
  intro v hv
  rw [mapE_ok_iff] at h
  obtain ⟨k, hk⟩ := List.getElem?_of_mem hv
  obtain ⟨i, _, hi⟩ := forall₂_getElem? h hk
  obtain ⟨j, _, hj⟩ := pyGet_ok.1 hi
  exact List.mem_of_getElem? hj

theorem iloc_total {E : Env} {n t : Nat} {us : List Nat} {f : Frame} (h : Shows E n t us f) {pos : List Nat}
    (hp : ∀ p ∈ pos, p < us.length) : ∃ g, iloc f pos = .ok g := by
  cases n with
  | zero => exact h.elim
  | succ n =>
    obtain ⟨h1, h2⟩ := h
    obtain ⟨ids, hi⟩ := mapE_pick_total (l := f.ids) (pos := pos) fun p hp' => by rw [← h1.length_eq]; exact hp p hp'
    have : ∃ cols, ilocCols pos f.cols = .ok cols := by
      refine mapE_total fun d hd => ?_
      obtain ⟨k, hk⟩ := List.getElem?_of_mem hd
      obtain ⟨c, _, _, hc⟩ := forall₂_getElem? h2 hk
      obtain ⟨v, hv⟩ := mapE_pick_total (l := d.2) (pos := pos) fun p hp' => by rw [← hc.length_eq]; exact hp p hp'
      exact ⟨(d.1, v), by simp only [hv]⟩
    obtain ⟨cols, hc⟩ := this
    exact ⟨⟨ids, cols⟩, by unfold iloc; simp only [hi, hc]⟩

theorem split_total {E : Env} {n t : Nat} {us : List Nat} {f : Frame} (h : Shows E n t us f) : ∃ cs, split f = .ok cs := by
  obtain ⟨gs, hg⟩ := mapE_total (f := fun p => iloc f [p]) (l := List.range f.ids.length) fun p hp =>
    iloc_total h (pos := [p]) fun q hq => by
      rw [List.mem_singleton.1 hq, ← h.ids_len]; exact List.mem_range.1 hp
  exact ⟨gs.map Frame.cell, by unfold split; rw [hg]; rfl⟩

theorem uniq_ne_nil {l : List Int} (h : l ≠ []) : uniq l ≠ [] := by
  cases l with
  | nil => exact absurd rfl h
  | cons x xs =>
    intro hc
    have : x ∈ uniq (x :: xs) := mem_uniq.2 List.mem_cons_self
    rw [hc] at this; cases this

theorem deref_total {E : Env} {n t : Nat} (hE : Rect E) {ret : List Int} {f : Frame}
    (h : get E n t (.list (uniq ret)) = .ok f) : ∃ g, deref (get E n t) ret = .ok g := by
  obtain ⟨us, hu, hs⟩ := get_shows hE n _ _ _ h
  obtain ⟨g, hg⟩ := iloc_total hs (pos := ret.map fun v => (uniq ret).idxOf v) fun p hp => by
    obtain ⟨v, hv, rfl⟩ := List.mem_map.1 hp
    have : Forall₂ _ (uniq ret) us := hu
    rw [← this.length_eq]
    exact List.idxOf_lt_length_of_mem (mem_uniq.2 hv)
  exact ⟨g, by unfold deref; simp only [h, hg]⟩

theorem startEnd_seg {idx : List Nat} {i : Int} (h0 : 0 ≤ i) (h1 : i < idx.length) : ∃ s, startEnd idx i = .ok s ∧
    ∀ data, sliceOf data s = .ok (seg idx data i.toNat) := by
  obtain ⟨s, hs⟩ := startEnd_total h0 h1
  obtain ⟨k, hk, rfl⟩ := startEnd_ok hs
  rw [pyPos_of_range h0 h1] at hk
  cases hk
  exact ⟨_, hs, fun data => sliceOf_seg data _ _⟩

theorem mem_seg {idx : List Nat} {data : List Int} {r : Nat} {v : Int} (h : v ∈ seg idx data r) : v ∈ data :=
  List.mem_of_mem_drop (List.mem_of_mem_take h)

/-- rows of a ragged region -/
theorem raggedRegionRow_total {E : Env} {n t : Nat} (hE : Rect E) {idx : List Nat} {data : List Int} {i : Int}
    (h0 : 0 ≤ i) (h1 : i < idx.length)
    (hg : ∃ f, get E n t (.list (uniq (seg idx data i.toNat))) = .ok f) :
    ∃ f, raggedRegionRow (get E n t) idx data i = .ok f := by
  obtain ⟨s, hs, hd⟩ := startEnd_seg h0 h1
  obtain ⟨f, hf⟩ := hg
  obtain ⟨g, hg⟩ := deref_total hE hf
  exact ⟨g, by unfold raggedRegionRow; simp only [hs, regionGet, hd, hg]⟩

theorem raggedRow_total {idx : List Nat} {data : List Int} {i : Int} (h0 : 0 ≤ i) (h1 : i < idx.length) :
    ∃ f, raggedRow idx data i = .ok f := by
  obtain ⟨s, hs, hd⟩ := startEnd_seg h0 h1
  exact ⟨seg idx data i.toNat, by unfold raggedRow; simp only [hs, hd]⟩

theorem indexGet_many_total {α : Type} {row : Int → Except Err α} {one : α → Got} {many : List α → Got} {idx : List Nat}
    {arg : Sel} {is : List Int} (h : manyRows idx.length arg = .ok is) (hne : is ≠ []) (hr : ∀ i ∈ is, ∃ a, row i = .ok a) :
    ∃ l, indexGet row one many idx arg = .ok (many l) := by
  obtain ⟨l, hl⟩ := mapE_total hr
  refine ⟨l, ?_⟩
  cases arg with
  | int i => cases h
  | list js =>
    simp only [manyRows, Except.ok.injEq] at h
    subst h
    simp only [indexGet, indexRows, hne, if_false, hl]; rfl
  | slice s => simp only [indexGet, indexRows, (show s.range idx.length = .ok is from h), hl]; rfl

theorem get_total {E : Env} {rank : Nat → Nat} {S : Nat → Prop} (w : WF E rank S) : ∀ n t arg, rank t < n →
    InRange (E t).ids.length (S t) arg → ∃ f, get E n t arg = .ok f
  | 0, _, _, h, _ => absurd h (Nat.not_lt_zero _)
  | n + 1, t, arg, hn, hr => by
    have ih := get_total w n
    have hG := get_shows w.rect n
    -- the rows of the region's table
    have sub : ∀ t', rank t' < rank t → ∀ ret : List Int, (∀ v ∈ ret, 0 ≤ v ∧ v < (E t').ids.length) → (S t' ∨ ret ≠ []) →
        ∃ f, get E n t' (.list (uniq ret)) = .ok f := by
      intro t' ht ret hv hne
      refine ih t' _ (by omega) ⟨fun v hv' => hv v (mem_uniq.1 hv'), ?_⟩
      rcases hne with h | h
      · exact .inl h
      · exact .inr (uniq_ne_nil h)
    have rrow : ∀ c ∈ (E t).cols, ∀ idx d t', c.2 = .raggedRegion idx d t' → ∀ i : Int, 0 ≤ i → i < idx.length →
        ∃ f, raggedRegionRow (get E n t') idx d i = .ok f := by
      intro c hc idx d t' he i h0 h1
      obtain ⟨a, b, cc⟩ := w.ragged t c hc idx d t' he
      refine raggedRegionRow_total w.rect h0 h1 (sub t' a _ (fun v hv => b v (mem_seg hv)) ?_)
      rcases cc with h | h
      · exact .inl h
      · exact .inr (h _ (by omega))
    -- integers
    have one : ∀ i : Int, arg = .int i → ∃ f, get E (n + 1) t arg = .ok f := by
      rintro i rfl
      obtain ⟨h0, h1⟩ := hr
      obtain ⟨k, rfl⟩ := Int.eq_ofNat_of_zero_le h0
      have hk : k < (E t).ids.length := by omega
      have e1 : idsGet (E t).ids (.int k) = .ok [(E t).ids[k]] := by
        simp only [idsGet]; rw [pyGet_nat.2 (List.getElem?_eq_getElem hk)]; rfl
      have e2 : ∃ cols, mapE (colCells (get E n) (.int k)) (E t).cols = .ok cols ∧ ∀ d ∈ cols, d.2.length = 1 := by
        have : ∀ c ∈ (E t).cols, ∃ d : String × List Cell, colCells (get E n) (.int k) c = .ok d := by
          intro c hc
          have hlen := w.rect t c hc
          have hsing : ∀ g cs, colGet (get E n) (.int k) c.2 = .ok g → single g = .ok cs →
              ∃ d : String × List Cell, colCells (get E n) (.int k) c = .ok d := by
            intro g cs h1 h2; exact ⟨(c.1, cs), by unfold colCells; simp only [h1, format, h2]⟩
          cases he : c.2 with
          | plain d =>
            rw [he] at hlen
            have hkd : k < d.length := by rw [show d.length = _ from hlen]; exact hk
            refine hsing (.scalar d[k]) _ ?_ rfl
            rw [he]; simp only [colGet, dataGet]
            rw [pyGet_nat.2 (List.getElem?_eq_getElem hkd)]; rfl
          | ragged idx d =>
            rw [he] at hlen
            obtain ⟨vs, hv⟩ := raggedRow_total (data := d) (idx := idx) h0
              (by rw [show idx.length = _ from hlen]; exact h1)
            refine hsing (.list vs) _ ?_ rfl
            rw [he]; simp only [colGet, indexGet]
            exact except_map_ok.2 ⟨vs, hv, rfl⟩
          | region d t' =>
            rw [he] at hlen
            have hkd : k < d.length := by rw [show d.length = _ from hlen]; exact hk
            obtain ⟨ha, hb⟩ := w.region t c hc d t' he
            obtain ⟨f, hf⟩ := ih t' (.int d[k]) (by omega) (hb _ (List.getElem_mem hkd))
            refine hsing (.frame f) _ ?_ rfl
            rw [he]
            refine except_map_ok.2 ⟨f, ?_, rfl⟩
            have hnge : ¬ ((k : Int) ≥ d.length) := by omega
            simp only [regionGet]
            rw [if_neg hnge, pyGet_nat.2 (List.getElem?_eq_getElem hkd)]
            exact hf
          | raggedRegion idx d t' =>
            rw [he] at hlen
            obtain ⟨f, hf⟩ := rrow c hc idx d t' he k h0 (by rw [show idx.length = _ from hlen]; exact h1)
            refine hsing (.frame f) _ ?_ rfl
            rw [he]
            exact except_map_ok.2 ⟨f, hf, rfl⟩
        obtain ⟨cols, hcols⟩ := mapE_total this
        refine ⟨cols, hcols, ?_⟩
        intro d hd
        obtain ⟨j, hj⟩ := List.getElem?_of_mem hd
        obtain ⟨c, hc1, hc2⟩ := forall₂_getElem? (mapE_ok_iff.1 hcols) hj
        obtain ⟨g, hg, hf, _⟩ := colCells_ok hc2
        obtain ⟨_, _, hh⟩ := col_int hG hg hf
        exact hh.length_eq.symm
      obtain ⟨cols, hc1, hc2⟩ := e2
      refine ⟨⟨[(E t).ids[k]], cols⟩, ?_⟩
      change tblGet (get E n) (E t) (.int k) = _
      unfold tblGet
      rw [e1]; simp only [hc1, mkFrame]
      rw [if_pos]
      simp only [List.all_eq_true, decide_eq_true_eq]
      intro d hd; rw [hc2 d hd]; rfl
    -- lists and slices
    have many : ∀ is, manyRows (E t).ids.length arg = .ok is → (∀ g, format arg g = multi g) →
        (∀ i ∈ is, 0 ≤ i ∧ i < (E t).ids.length) → (S t ∨ is ≠ []) → ∃ f, get E (n + 1) t arg = .ok f := by
      intro is hm hfm hin hne
      have hpos := forall₂_pos_of_range hin
      obtain ⟨ids, hids⟩ := mapE_pyGet_total (l := (E t).ids) (is := is) hin
      have e1 : idsGet (E t).ids arg = .ok ids := by
        cases arg with
        | int i => cases hm
        | list js => cases hm; exact hids
        | slice s => simpa only [idsGet, sliceOf, (show s.range _ = .ok is from hm)] using hids
      have hidl : ids.length = is.length := (mapE_ok_iff.1 hids).length_eq.symm
      have e2 : ∃ cols, mapE (colCells (get E n) arg) (E t).cols = .ok cols ∧ ∀ d ∈ cols, d.2.length = is.length := by
        have : ∀ c ∈ (E t).cols, ∃ d : String × List Cell, colCells (get E n) arg c = .ok d := by
          intro c hc
          have hlen := w.rect t c hc
          have hmul : ∀ g cs, colGet (get E n) arg c.2 = .ok g → multi g = .ok cs →
              ∃ d : String × List Cell, colCells (get E n) arg c = .ok d := by
            intro g cs h1 h2; exact ⟨(c.1, cs), by unfold colCells; simp only [h1, hfm, h2]⟩
          have hne' : ¬ ((∃ d, c.2 = .plain d) ∨ ∃ d t', c.2 = .region d t' ∧ S t') → is ≠ [] := by
            intro hno
            rcases hne with h | h
            · exact absurd (w.flat t h c hc) hno
            · exact h
          cases he : c.2 with
          | plain d =>
            rw [he] at hlen
            obtain ⟨vs, hv⟩ := mapE_pyGet_total (l := d) (is := is) (by rw [show d.length = _ from hlen]; exact hin)
            refine hmul (.list vs) _ ?_ rfl
            rw [he, colGet, dataGet_many (by rw [show d.length = _ from hlen]; exact hm), hv]; rfl
          | ragged idx d =>
            rw [he] at hlen
            obtain ⟨l, hl⟩ := indexGet_many_total (row := raggedRow idx d) (one := .list) (many := .lists) (idx := idx)
              (arg := arg) (is := is) (by rw [show idx.length = _ from hlen]; exact hm)
              (hne' (by rw [he]; rintro (⟨d, hd⟩ | ⟨d, t', hd, _⟩) <;> cases hd)) fun i hi =>
                raggedRow_total (hin i hi).1 (by rw [show idx.length = _ from hlen]; exact (hin i hi).2)
            refine hmul (.lists l) _ ?_ rfl
            rw [he]; exact hl
          | region d t' =>
            rw [he] at hlen
            obtain ⟨ha, hb⟩ := w.region t c hc d t' he
            obtain ⟨ret, hret⟩ := mapE_pyGet_total (l := d) (is := is) (by rw [show d.length = _ from hlen]; exact hin)
            have hretl : ret.length = is.length := (mapE_ok_iff.1 hret).length_eq.symm
            have hSr : S t' ∨ ret ≠ [] := by
              rcases hne with h | h
              · rcases w.flat t h c hc with ⟨_, hd⟩ | ⟨_, _, hd, hs⟩
                · rw [he] at hd; cases hd
                · rw [he] at hd; cases hd; exact .inl hs
              · refine .inr fun hc => h ?_
                rw [hc] at hretl; exact List.length_eq_zero_iff.1 hretl.symm
            obtain ⟨f, hf⟩ := sub t' ha ret (fun v hv => hb v (mem_of_mapE_pyGet hret v hv)) hSr
            obtain ⟨g, hg⟩ := deref_total w.rect hf
            obtain ⟨ks, _, hs⟩ := deref_shows hG hg
            obtain ⟨cs, hcs⟩ := split_total hs
            refine hmul (.frame g) cs ?_ hcs
            rw [he]
            refine except_map_ok.2 ⟨g, ?_, rfl⟩
            rw [regionGet_many (by rw [show d.length = _ from hlen]; exact hm), hret]; exact hg
          | raggedRegion idx d t' =>
            rw [he] at hlen
            obtain ⟨l, hl⟩ := indexGet_many_total (row := raggedRegionRow (get E n t') idx d) (one := .frame)
              (many := .frames) (idx := idx) (arg := arg) (is := is) (by rw [show idx.length = _ from hlen]; exact hm)
              (hne' (by rw [he]; rintro (⟨d, hd⟩ | ⟨d, t', hd, _⟩) <;> cases hd)) fun i hi =>
                rrow c hc idx d t' he i (hin i hi).1 (by rw [show idx.length = _ from hlen]; exact (hin i hi).2)
            refine hmul (.frames l) _ ?_ rfl
            rw [he]; exact hl
        obtain ⟨cols, hcols⟩ := mapE_total this
        refine ⟨cols, hcols, ?_⟩
        intro d hd
        obtain ⟨j, hj⟩ := List.getElem?_of_mem hd
        obtain ⟨c, hc1, hc2⟩ := forall₂_getElem? (mapE_ok_iff.1 hcols) hj
        obtain ⟨g, hg, hf, _⟩ := colCells_ok hc2
        rw [hfm] at hf
        have hlen := w.rect t c (List.mem_of_getElem? hc1)
        have hh := col_many hG (by rw [hlen]; exact hm) hg hf (by rw [hlen]; exact hpos)
        rw [← hh.length_eq, List.length_map]
      obtain ⟨cols, hc1, hc2⟩ := e2
      refine ⟨⟨ids, cols⟩, ?_⟩
      change tblGet (get E n) (E t) arg = _
      unfold tblGet
      rw [e1]; simp only [hc1, mkFrame]
      rw [if_pos]
      simp only [List.all_eq_true, decide_eq_true_eq]
      intro d hd; rw [hc2 d hd, hidl]
    cases arg with
    | int i => exact one i rfl
    | list is => exact many is rfl (fun _ => rfl) hr.1 hr.2
    | slice s =>
      obtain ⟨is, his, hne⟩ := hr
      exact many is his (fun _ => rfl) (PySlice.mem_range his) hne

/-! ## when there is none -/

/-- Row `k` of table `t'` is referred to from row `r` of table `t`. -/
def Refers (E : Env) (t r t' k : Nat) : Prop := ∃ c ∈ (E t).cols,
  (∃ d v, c.2 = .region d t' ∧ d[r]? = some v ∧ pyPos (E t').ids.length v = some k) ∨
  (∃ idx d, c.2 = .raggedRegion idx d t' ∧ r < idx.length ∧ ∃ v ∈ seg idx d r, pyPos (E t').ids.length v = some k)

theorem Shows.refers {E : Env} {n t : Nat} {rs : List Nat} {f : Frame} (h : Shows E (n + 1) t rs f) {r t' k : Nat}
    (hr : r ∈ rs) (hk : Refers E t r t' k) : ∃ ks g, k ∈ ks ∧ Shows E n t' ks g := by
  obtain ⟨_, h2⟩ := h
  obtain ⟨c, hc, hcase⟩ := hk
  obtain ⟨j, hj⟩ := List.getElem?_of_mem hc
  obtain ⟨d, _, _, hd⟩ := forall₂_getElem?' h2 hj
  obtain ⟨i, hi⟩ := List.getElem?_of_mem hr
  obtain ⟨x, _, hx⟩ := forall₂_getElem?' hd hi
  rcases hcase with ⟨data, v, he, hv, hp⟩ | ⟨idx, data, he, hlt, v, hv, hp⟩
  · rw [he] at hx
    obtain ⟨w, k', g, hw, hk', hs, _⟩ := hx
    rw [hv] at hw; cases hw
    rw [hp] at hk'; cases hk'
    exact ⟨[k], g, List.mem_singleton.2 rfl, hs⟩
  · rw [he] at hx
    obtain ⟨_, ks, g, hks, hs, _⟩ := hx
    obtain ⟨m, hm⟩ := List.getElem?_of_mem hv
    obtain ⟨k', hk1, hk2⟩ := forall₂_getElem?' hks hm
    rw [hp] at hk2; cases hk2
    exact ⟨ks, g, List.mem_of_getElem? hk1, hs⟩

theorem Shows.none_of_closed {E : Env} {S : Nat → Nat → Prop} (hS : ∀ t r, S t r → ∃ t' k, Refers E t r t' k ∧ S t' k) :
    ∀ n t rs f r, r ∈ rs → S t r → ¬ Shows E n t rs f
  | 0, _, _, _, _, _, _ => fun h => h
  | n + 1, t, rs, f, r, hr, hs => fun h => by
    obtain ⟨t', k, hk, hs'⟩ := hS t r hs
    obtain ⟨ks, g, hm, hg⟩ := h.refers hr hk
    exact Shows.none_of_closed hS n t' ks g k hm hs' hg

/-! ## row numbers instead of frames -/

/-- a column with the region taken as plain numbers -/
def Col.flat : Col → Col
  | .plain d => .plain d
  | .ragged idx d => .ragged idx d
  | .region d _ => .plain d
  | .raggedRegion idx d _ => .ragged idx d

/-- a table with its regions taken as plain numbers -/
def Tbl.flat (t : Tbl) : Tbl := ⟨t.ids, t.cols.map fun c => (c.1, c.2.flat)⟩

theorem Col.flat_len (c : Col) : c.flat.len = c.len := by cases c <;> rfl

theorem mapE_map {α β γ : Type} {f : β → Except Err γ} {g : α → β} {l : List α} : mapE f (l.map g) = mapE (fun a => f (g a)) l := by
  induction l with
  | nil => rfl
  | cons a l ih => simp only [List.map_cons, mapE, ih]

theorem colIndex_eq (get : Nat → Sel → Except Err Frame) (arg : Sel) (c : Col) : colIndex arg c = colGet get arg c.flat := by
  cases c with
  | plain d => rfl
  | ragged idx d => rfl
  | raggedRegion idx d t => rfl
  | region d t =>
    cases arg with
    | list is => rfl
    | slice s => rfl
    | int i =>
      simp only [colIndex, Col.flat, colGet]
      by_cases h : i ≥ d.length
      · rw [if_pos h]
        have : pyPos d.length i = none := by
          unfold pyPos; rw [if_pos (by omega), if_neg (by omega)]
        simp only [dataGet, pyGet, this]; rfl
      · rw [if_neg h]

theorem getIndex_eq (t : Tbl) (arg : Sel) : getIndex t arg = get (fun _ => t.flat) 1 0 arg := by
  have : mapE (colIndexCells arg) t.cols = mapE (colCells (get (fun _ => t.flat) 0) arg) t.flat.cols := by
    unfold Tbl.flat
    rw [mapE_map]
    congr 1
    funext c
    unfold colIndexCells colCells
    rw [colIndex_eq (get (fun _ => t.flat) 0)]
    rfl
  unfold getIndex
  rw [this]
  rfl

theorem Rect.flat {E : Env} (hE : Rect E) (t : Nat) : Rect fun _ => (E t).flat := by
  intro _ c hc
  obtain ⟨c', hc', rfl⟩ := List.mem_map.1 hc
  rw [Col.flat_len]; exact hE t c' hc'

end Verif.Nested
