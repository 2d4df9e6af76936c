import Verif.Lemmas.TableInitMain

/-!
# C150–C155: tables constructed from columns
-/

namespace Verif.TableInit
open Verif

/-- the column leads to `b` through its targets -/
inductive Leads (b : Obj) : Obj → Prop
  | refl : Leads b b
  | step (i : Nat) (n : String) (l : Option Nat) (t : Obj) : Leads b t → Leads b (.index i n l t)

/-- the outermost index of `b` among the columns, or `b` if no column is its index -/
def Outermost (L : List Obj) (b o : Obj) : Prop := o ∈ L ∧ Leads b o ∧ ∀ i n l, Obj.index i n l o ∉ L

/-- columns that belong together: the target of an index is among them, an index does not lead to an `EnumData` or to the elements of one, the
elements of an `EnumData` are among them and a plain column -/
structure Sound (L : List Obj) : Prop where
  closed : ∀ i n l u, Obj.index i n l u ∈ L → u ∈ L
  ragged : ∀ i n l i' n' l' e, Obj.index i n l (.enum i' n' l' e) ∉ L
  elements : ∀ i n l e, Obj.enum i n l e ∈ L → e ∈ L ∧ ∃ i n l, e = .data i n l
  plain : ∀ i n l e, Obj.enum i n l e ∈ L → ∀ i' n' l', Obj.index i' n' l' e ∉ L

/-- the column is the elements of an `EnumData` -/
def IsElements (L : List Obj) (c : Obj) : Prop := ∃ i n l, Obj.enum i n l c ∈ L

theorem leads_base {b : Obj} (hb : b.isIndex = false) {o : Obj} : Leads b o ↔ o.base = b := by
  constructor
  · intro h
    induction h with
    | refl => exact base_self hb
    | step i n l t _ ih => exact ih
  · intro h
    induction o with
    | data => exact h ▸ .refl
    | enum => exact h ▸ .refl
    | index i n l t ih => exact .step i n l t (ih h)

theorem base_mem {L : List Obj} (h : Sound L) : ∀ {x : Obj}, x ∈ L → x.base ∈ L
  | .index i n l t, hx => (base_mem h (h.closed i n l t hx) : t.base ∈ L)
  | .data _ _ _, hx => hx
  | .enum _ _ _ _, hx => hx

theorem last_index {L : List Obj} (h : Sound L) : ∀ {x : Obj}, x ∈ L → x.isIndex = true → ∃ i n l, Obj.index i n l x.base ∈ L
  | .index i n l t, hx, _ => by
    cases ht : t.isIndex with
    | false => exact ⟨i, n, l, by show Obj.index i n l t.base ∈ L; rw [base_self ht]; exact hx⟩
    | true =>
      have := last_index h (x := t) (h.closed i n l t hx) ht
      exact this
  | .data _ _ _, _, h => by cases h
  | .enum _ _ _ _, _, h => by cases h

theorem Sound.simple {L : List Obj} (h : Sound L) : Simple L := by
  refine ⟨?_, ?_⟩
  · intro x hx hxi
    obtain ⟨i, n, l, hl⟩ := last_index h hx hxi
    cases hb : x.base with
    | data i n l => exact ⟨i, n, l, rfl⟩
    | enum i' n' l' e => rw [hb] at hl; exact (h.ragged _ _ _ _ _ _ _ hl).elim
    | index i' n' l' t =>
      have := base_not_index x
      rw [hb] at this
      cases this
  · intro i n l e he
    obtain ⟨h1, a, b, c, rfl⟩ := h.elements i n l e he
    exact ⟨h1, rfl, a, b, c, rfl⟩

theorem Sound.elems {L : List Obj} (h : Sound L) (hn : (L.map Obj.name).Nodup) : ∀ k ∈ elems L, k ∉ targets L := by
  intro k hk ht
  obtain ⟨i, n, l, e, he, h1⟩ := mem_elems.1 hk
  obtain ⟨i', n', l', u, hu, h2⟩ := mem_targets.1 ht
  have : u = e := names_inj L hn u (h.closed _ _ _ _ hu) e (h.elements _ _ _ _ he).1 (by rw [h1, h2])
  subst this
  exact h.plain _ _ _ _ he _ _ _ hu

theorem elems_iff {L : List Obj} (h : Sound L) (hn : (L.map Obj.name).Nodup) {c : Obj} (hc : c ∈ L) : c.name ∈ elems L ↔ IsElements L c := by
  constructor
  · intro hk
    obtain ⟨i, n, l, e, he, h1⟩ := mem_elems.1 hk
    rw [names_inj L hn e (h.elements _ _ _ _ he).1 c hc h1] at he
    exact ⟨i, n, l, he⟩
  · rintro ⟨i, n, l, he⟩
    exact mem_elems.2 ⟨i, n, l, c, he, rfl⟩

theorem outermost_of_top {L : List Obj} (w : WF L) {b o : Obj} (hb : b.isIndex = false) (h : Top L b o) : Outermost L b o :=
  ⟨h.1, (leads_base hb).2 h.2.1, fun i n l hi => top_not_target w h (mem_targets.2 ⟨i, n, l, o, hi, rfl⟩)⟩

theorem top_of_outermost {L : List Obj} (w : WF L) {b o : Obj} (hb : b.isIndex = false) (h : Outermost L b o) : Top L b o := by
  have hob := (leads_base hb).1 h.2.1
  refine ⟨h.1, hob, ?_⟩
  intro c hc hci hcb
  cases ho : o.isIndex with
  | false =>
    have e : o = b := by rw [← hob, base_self ho]
    obtain ⟨i, n, l, hl⟩ := chain_last hci
    rw [hcb, ← e] at hl
    exact (h.2.2 _ _ _ (w.chain hc hl)).elim
  | true =>
    rcases w.linear hc h.1 hci ho (by rw [hcb, hob]) with h1 | h1
    · exact h1
    · rcases chain_up h1 with h2 | ⟨i, n, l, h2⟩
      · rw [← h2]; exact mem_chain_self ho
      · exact (h.2.2 _ _ _ (w.chain hc h2)).elim

/-! ## Concrete columns -/

def dx : Obj := .data 1 "x" (some 5)
def xi : Obj := .index 2 "x_index" (some 3) dx
def xii : Obj := .index 3 "x_index_index" (some 2) xi
def dy : Obj := .data 4 "y" (some 2)
def el : Obj := .data 5 "e_elements" (some 7)
def en : Obj := .enum 6 "e" (some 2) el
/-- a doubly indexed column, a plain one, and an `EnumData` -/
def ex : List Obj := [dx, xi, xii, dy, en, el]

theorem ex_sound : Sound ex := by
  refine ⟨?_, ?_, ?_, ?_⟩
  · intro i n l u h
    simp only [ex, dx, xi, xii, dy, en, el, List.mem_cons, List.not_mem_nil, or_false, reduceCtorEq, false_or, Obj.index.injEq] at h
    rcases h with ⟨-, -, -, rfl⟩ | ⟨-, -, -, rfl⟩ <;> simp [ex, dx, xi]
  · intro i n l i' n' l' e h
    simp [ex, dx, xi, xii, dy, en, el] at h
  · intro i n l e h
    simp only [ex, dx, xi, xii, dy, en, el, List.mem_cons, List.not_mem_nil, or_false, reduceCtorEq, false_or, Obj.enum.injEq] at h
    obtain ⟨-, -, -, rfl⟩ := h
    exact ⟨by simp [ex, el], _, _, _, rfl⟩
  · intro i n l e h i' n' l' h'
    simp only [ex, dx, xi, xii, dy, en, el, List.mem_cons, List.not_mem_nil, or_false, reduceCtorEq, false_or, Obj.enum.injEq] at h
    obtain ⟨-, -, -, rfl⟩ := h
    simp [ex, dx, xi, xii, dy, en, el] at h'

/-! ## C150: the columns have as many rows as there are ids -/

theorem C150_rows_partial {r : List String} {ids : Option (List Int)} {L : List Obj} {ns : List String} {t : Table}
    (h : init r ids (some L) ns = .ok t) (hs : Sound L) (hr : ∀ x ∈ L, x.isIndex = true → x.name ∉ r)
    (n : String) (hn : n ∈ t.colnames) (o : Obj) (ho : t.get n = some o) (k : Nat) (hk : o.len = some k) (he : ¬ IsElements L o) :
    k = t.ids.length := by
  obtain ⟨w, -, -, -, hg⟩ := init_spec h hs.closed hs.simple hr
  obtain ⟨b, hb, hbi, hbn, -, o', ho', -, htop⟩ := hg n hn
  rw [ho] at ho'
  cases ho'
  obtain ⟨h1, -⟩ := init_ok h
  exact makeIds_len h1 htop.1 hk (top_not_target w htop) (fun h2 => he ((elems_iff hs (makeIds_ok h1).1 htop.1).1 h2))

theorem C150_accepts {r : List String} {ids : Option (List Int)} {L : List Obj} {ns : List String} {k : Nat} (hne : L ≠ []) (hs : Sound L)
    (hr : ∀ x ∈ L, x.isIndex = true → x.name ∉ r) (hn : (L.map Obj.name).Nodup)
    (ht : (targets L).Nodup) (hl : ∀ c ∈ L, c.len ≠ none)
    (hk : ∀ c ∈ L, ¬ IsElements L c → (∀ i n l, Obj.index i n l c ∉ L) → c.len = some k)
    (hid : ids = none ∨ ids = some [] ∨ ∃ is, ids = some is ∧ is.length = k)
    (hns : ∀ n ∈ ns, ∃ b ∈ L, b.isIndex = false ∧ b.name = n) :
    ∃ t, init r ids (some L) ns = .ok t ∧ t.ids.length = k := by
  have w : WF L := ⟨names_inj L hn, targets_inj L ht, hs.closed⟩
  have hm : ∃ is, makeIds ids (some L) = .ok is ∧ is.length = k := by
    cases L with
    | nil => exact absurd rfl hne
    | cons c cs =>
      refine ⟨_, makeIds_total (c := c) (by simp) w hn ht hs.simple (hs.elems hn) hl ?_ hid, ?_⟩
      · intro o ho
        refine hk o ho.1 (fun h => ho.2.2 ((elems_iff hs hn ho.1).2 h)) ?_
        intro i n l hi
        exact ho.2.1 (mem_targets.2 ⟨i, n, l, o, hi, rfl⟩)
      · split
        · assumption
        · simp [newIds]
  obtain ⟨is, h1, h1'⟩ := hm
  by_cases hnil : ns = []
  · subst hnil
    have : ∃ dfs, lookupAll (attach r L).cols (nameLoop L [] []) = .ok dfs := by
      apply lookupAll_ok
      intro n hn'
      obtain ⟨b, hb, hbi, -, rfl⟩ := ((default_mem hn hs.simple).2).1 hn'
      obtain ⟨o, ho, -⟩ := (attach_spec w hr).1 b hb hbi
      exact has_of_get? ho
    obtain ⟨dfs, h3⟩ := this
    exact ⟨_, init_of h1 (arrange_default L) h3, h1'⟩
  · obtain ⟨cs, hcs⟩ := pick_ok w hn hs.simple ns hns
    have hB := pick_blocks w hn hs.simple _ _ hcs
    have hsub := blocks_sub w hs.simple hB
    have : ∃ dfs, lookupAll (attach r cs).cols ns = .ok dfs := by
      apply lookupAll_ok
      intro n hn'
      obtain ⟨b, hb, hbi, rfl⟩ := hns n hn'
      obtain ⟨hbc, -⟩ := blocks_top w hs.simple hB hn' hb hbi rfl
      obtain ⟨o, ho, -⟩ := (attach_spec (blocks_wf w hs.simple hB) (fun x hx => hr x (hsub x hx))).1 b hbc hbi
      exact has_of_get? ho
    obtain ⟨dfs, h3⟩ := this
    exact ⟨_, init_of h1 (arrange_of hnil hcs) h3, h1'⟩

theorem ex_init : (init [] none (some ex) ["e", "x"]).toOption.map (fun t => (t.ids, t.get "x", t.get "e")) = some ([0, 1], some xii, some en) := by
  decide +kernel

/-- the data given as an iterator before its index are rejected, after it accepted -/
theorem C150_iterator_fails : (init [] none (some [.data 1 "x" none, .index 2 "x_index" (some 2) (.data 1 "x" none)]) []).toOption.isSome = false ∧
    (init [] none (some [.index 2 "x_index" (some 2) (.data 1 "x" none), .data 1 "x" none]) []).toOption.isSome = true := by
  decide +kernel

/-- a column indexed among the columns only by name: the column that is found has a different length, and is not among the columns -/
theorem C150_same_name_fails : (init [] none (some [.data 1 "x" (some 5), .index 2 "x_index" (some 2) (.data 9 "x" (some 4)), dy]) []).toOption.map
    (fun t => (t.ids.length, t.get "x", t.columns.length)) = some (2, some (.index 2 "x_index" (some 2) (.data 9 "x" (some 4))), 3) := by
  decide +kernel

def el' : Obj := .data 2 "e_elements" (some 3)
def en' : Obj := .enum 1 "e" (some 5) el'
def ei' : Obj := .index 3 "e_index" (some 2) en'

/-- an `EnumData` with an index, in the order in which a file lists its columns: the index is lost, the column has more rows than there are ids -/
theorem C150_ragged_enum_fails : (init [] none (some [en', el', ei']) ["e"]).toOption.map
    (fun t => (t.ids, (t.get "e").map Obj.len, t.columns)) = some ([0, 1], some (some 5), [en', el']) := by
  decide +kernel

example : Sound ex ∧ (∀ x ∈ ex, x.isIndex = true → x.name ∉ ["name", "id"]) ∧ (ex.map Obj.name).Nodup ∧ (targets ex).Nodup ∧ (∀ c ∈ ex, c.len ≠ none) :=
  ⟨ex_sound, by decide +kernel, by decide +kernel, by decide +kernel, by decide +kernel⟩

/-! ## C151: the ids -/

theorem C151_given {r : List String} {is : List Int} {cols : Option (List Obj)} {ns : List String} {t : Table}
    (h : init r (some is) cols ns = .ok t) (hne : is ≠ []) : t.ids = is := by
  obtain ⟨h1, -⟩ := init_ok h
  have hlen : 0 < is.length := List.length_pos_iff.2 hne
  have key : ∀ lens, checkIds (some is) lens = .ok t.ids → t.ids = is := by
    intro lens hc
    unfold checkIds at hc
    split at hc
    · rename_i h2; cases h2
    · rename_i h2; cases h2; cases hc; rfl
    · split at hc
      · split at hc
        · rw [if_pos ⟨rfl, hlen⟩] at hc; cases hc
        · cases hc; rfl
      · cases hc
  match cols, h1 with
  | none, h1 => cases h1; rfl
  | some [], h1 => cases h1; rfl
  | some (c :: cs), h1 =>
    rw [makeIds_cons] at h1
    split at h1
    · split at h1
      · split at h1
        · cases h1
        · exact key _ h1
      · cases h1
    · cases h1

theorem C151_numbered {r : List String} {ids : Option (List Int)} (hid : ids = none ∨ ids = some []) {cols : Option (List Obj)} {ns : List String}
    {t : Table} (h : init r ids cols ns = .ok t) : t.ids = (List.range t.ids.length).map Int.ofNat := by
  obtain ⟨h1, -⟩ := init_ok h
  have hg : ids.getD [] = [] := by rcases hid with rfl | rfl <;> rfl
  have key : ∀ lens, checkIds ids lens = .ok t.ids → t.ids = (List.range t.ids.length).map Int.ofNat := by
    intro lens hc
    unfold checkIds at hc
    split at hc
    · cases hc
    · rename_i is
      have : is = [] := hg
      subst this
      have : t.ids = [] := (Except.ok.inj hc).symm
      rw [this]; rfl
    · rename_i n ns
      split at hc
      · split at hc
        · split at hc
          · cases hc
          · have : t.ids = newIds n := by rw [← Except.ok.inj hc, hg, List.nil_append]
            rw [this]
            simp [newIds]
        · have : t.ids = [] := by rw [← Except.ok.inj hc, hg]
          rw [this]; rfl
      · cases hc
  match cols, h1 with
  | none, h1 =>
    have : t.ids = [] := by rw [← Except.ok.inj h1, hg]
    rw [this]; rfl
  | some [], h1 =>
    have : t.ids = [] := by rw [← Except.ok.inj h1, hg]
    rw [this]; rfl
  | some (c :: cs), h1 =>
    rw [makeIds_cons] at h1
    split at h1
    · split at h1
      · split at h1
        · cases h1
        · exact key _ h1
      · cases h1
    · cases h1

/-- the ids are rejected if a column has another number of rows -/
theorem C151_mismatch {r : List String} {is : List Int} {L : List Obj} {ns : List String} (hne : is ≠ []) (hs : Sound L)
    (hn : (L.map Obj.name).Nodup) {c : Obj} (hc : c ∈ L) {k : Nat} (hk : c.len = some k) (he : ¬ IsElements L c)
    (ht : ∀ i n l, Obj.index i n l c ∉ L) (hlen : k ≠ is.length) : ∀ t, init r (some is) (some L) ns ≠ .ok t := by
  intro t h
  obtain ⟨h1, -⟩ := init_ok h
  have := C151_given h hne
  rw [← this] at hlen
  apply hlen
  refine makeIds_len h1 hc hk ?_ (fun h2 => he ((elems_iff hs hn hc).1 h2))
  intro htg
  obtain ⟨i, n, l, u, hu, e⟩ := mem_targets.1 htg
  rw [names_inj L hn u (hs.closed _ _ _ _ hu) c hc e] at hu
  exact ht _ _ _ hu

example : (init [] (some [10, 20]) (some ex) []).toOption.map (fun t => (t.ids, t.colnames)) = some ([10, 20], ["x", "y", "e"]) ∧
    (init [] (some [1, 2, 3]) (some ex) []).toOption.isSome = false ∧
    (init [] (some []) (some ex) []).toOption.map (fun t => t.ids) = some [0, 1] := by
  decide +kernel

/-! ## C152: the names of the columns if none are given -/

theorem C152_colnames_partial {r : List String} {ids : Option (List Int)} {L : List Obj} {t : Table} (h : init r ids (some L) [] = .ok t)
    (hs : Sound L) : t.columns = L ∧ ∃ cs : List Obj, t.colnames = cs.map Obj.name ∧ cs.Sublist L ∧
      ∀ c ∈ L, c ∈ cs ↔ c.isIndex = false ∧ ¬ IsElements L c := by
  obtain ⟨h1, h2, -⟩ := init_ok h
  have hn := (makeIds_ok h1).1
  rw [arrange_default] at h2
  have e1 : t.colnames = nameLoop L [] [] := (Prod.mk.inj (Except.ok.inj h2)).1.symm
  refine ⟨(Prod.mk.inj (Except.ok.inj h2)).2.symm, L.filter (fun c => !c.isIndex && decide (c.name ∉ elems L)), ?_, List.filter_sublist, ?_⟩
  · rw [e1]; exact (default_mem hn hs.simple (n := "")).1
  · intro c hc
    rw [List.mem_filter]
    simp only [hc, true_and, Bool.and_eq_true, Bool.not_eq_true', decide_eq_true_eq, elems_iff hs hn hc]

/-- the elements of an `EnumData` that are not among the columns are not added if no names are given, though they are if names are given -/
theorem C152_elements_fails : (init [] none (some [en]) []).toOption.map (fun t => t.columns) = some [en] ∧
    (init [] none (some [en]) ["e"]).toOption.map (fun t => t.columns) = some [en, el] := by
  decide +kernel

/-! ## C153: the order of the columns -/

theorem C153_order_partial {r : List String} {ids : Option (List Int)} {L L' : List Obj} {ns : List String} {t : Table}
    (h : init r ids (some L) ns = .ok t) (hns : ns ≠ []) (hp : L.Perm L') (hs : Sound L) (hl : ∀ c ∈ L, c.len ≠ none) :
    init r ids (some L') ns = .ok t := by
  obtain ⟨h1, h2, h3, h4, h5⟩ := init_ok h
  obtain ⟨hn, htn⟩ := makeIds_ok h1
  have hm : ∀ c, c ∈ L ↔ c ∈ L' := fun c => hp.mem_iff
  have w : WF L := ⟨names_inj L hn, targets_inj L htn, hs.closed⟩
  have h1' := makeIds_perm hp hs.closed (hs.elems hn) hl h1
  obtain ⟨hn', htn'⟩ := makeIds_ok h1'
  have w' : WF L' := w.congr (fun c hc => (hm c).2 hc) (fun i n l u hu => (hm _).1 (hs.closed i n l u ((hm _).2 hu)))
  have hs' : Simple L' := ⟨fun x hx => hs.simple.ragged x ((hm x).2 hx), fun i n l e he =>
    ⟨(hm e).1 (hs.simple.elements i n l e ((hm _).2 he)).1, (hs.simple.elements i n l e ((hm _).2 he)).2⟩⟩
  obtain ⟨e1, e2⟩ := arrange_given hns h2
  have hB := pick_blocks w hn hs.simple _ _ e2
  have hmem : ∀ n ∈ ns, ∃ b ∈ L', b.isIndex = false ∧ b.name = n := by
    intro n hn1
    have : ∀ {ns : List String} {cs : List Obj}, Blocks L ns cs → n ∈ ns → ∃ a, Block L n a := by
      intro ns cs hb hn2
      induction hb with
      | nil => cases hn2
      | cons g1 _ ih =>
        rcases List.mem_cons.1 hn2 with rfl | hn2
        · exact ⟨_, g1⟩
        · exact ih hn2
    obtain ⟨a, ha⟩ := this hB hn1
    cases ha with
    | data hb _ => exact ⟨_, (hm _).1 hb, rfl, rfl⟩
    | enum hb => exact ⟨_, (hm _).1 hb, rfl, rfl⟩
  obtain ⟨cs', hcs'⟩ := pick_ok w' hn' hs' ns hmem
  have hB' := pick_blocks w' hn' hs' _ _ hcs'
  have ecs : cs' = t.columns := blocks_unique w' hB' (blocks_congr hm hB)
  subst ecs
  have := init_of h1' (arrange_of hns hcs') (by rw [← e1]; exact h3)
  rw [this, ← h4, ← h5, ← e1]

theorem nothing_lost {L : List Obj} (w : WF L) (hs : Sound L) (hn : (L.map Obj.name).Nodup) {ns : List String} {cs : List Obj} (hB : Blocks L ns cs)
    (hall : ∀ b ∈ L, b.isIndex = false → ¬ IsElements L b → b.name ∈ ns) : ∀ c ∈ L, c ∈ cs := by
  have w' := blocks_wf w hs.simple hB
  have hdata : ∀ c ∈ L, c.isIndex = false → ¬ IsElements L c → c ∈ cs := fun c hc hci he =>
    (blocks_top w hs.simple hB (hall c hc hci he) hc hci rfl).1
  intro c hc
  cases hci : c.isIndex with
  | false =>
    by_cases he : IsElements L c
    · obtain ⟨i, n, l, h⟩ := he
      have hen : Obj.enum i n l c ∈ cs := hdata _ h rfl (by
        rintro ⟨i', n', l', h'⟩
        obtain ⟨-, a, b, d, e⟩ := hs.elements _ _ _ _ h'
        cases e)
      exact ((blocks_simple w hs.simple hB).elements i n l c hen).1
    · exact hdata c hc hci he
  | true =>
    have hb := base_mem hs hc
    have hnb : ¬ IsElements L c.base := by
      rintro ⟨i, n, l, h⟩
      obtain ⟨i', n', l', h'⟩ := last_index hs hc hci
      exact hs.plain _ _ _ _ h _ _ _ h'
    have hbn := hall c.base hb (base_not_index c) hnb
    obtain ⟨hbc, htop⟩ := blocks_top w hs.simple hB hbn hb (base_not_index c) rfl
    obtain ⟨o, -, ho⟩ := (attach_spec (r := []) w' (by simp)).1 c.base hbc (base_not_index c)
    exact w'.chain ho.1 ((htop o ho).2.2 c hc hci rfl)

/-- no column is lost if all those are named that are no indices and no elements, and none is added -/
theorem C153_complete_partial {r : List String} {ids : Option (List Int)} {L : List Obj} {ns : List String} {t : Table}
    (h : init r ids (some L) ns = .ok t) (hs : Sound L)
    (hall : ns = [] ∨ ∀ b ∈ L, b.isIndex = false → ¬ IsElements L b → b.name ∈ ns) (c : Obj) : c ∈ t.columns ↔ c ∈ L := by
  obtain ⟨h1, h2, -⟩ := init_ok h
  obtain ⟨hn, htn⟩ := makeIds_ok h1
  have w : WF L := ⟨names_inj L hn, targets_inj L htn, hs.closed⟩
  by_cases hns : ns = []
  · subst hns
    rw [(C152_colnames_partial h hs).1]
  · obtain ⟨e1, e2⟩ := arrange_given hns h2
    have hB := pick_blocks w hn hs.simple _ _ e2
    rcases hall with h' | hall
    · exact (hns h').elim
    · exact ⟨blocks_sub w hs.simple hB c, nothing_lost w hs hn hB hall c⟩

/-- the columns before it index the column: a column follows its indices, outermost first -/
theorem C153_indices_first {r : List String} {ids : Option (List Int)} {L : List Obj} {n : String} {t : Table}
    (h : init r ids (some L) [n] = .ok t) (hs : Sound L) (b o : Obj) (hb : b ∈ L) (hbn : b.name = n) (hbi : ∃ i l, b = .data i n l)
    (ho : Outermost L b o) : t.columns = o.chain ++ [b] := by
  obtain ⟨h1, h2, -⟩ := init_ok h
  obtain ⟨hn, htn⟩ := makeIds_ok h1
  have w : WF L := ⟨names_inj L hn, targets_inj L htn, hs.closed⟩
  obtain ⟨e1, e2⟩ := arrange_given (by simp) h2
  have hB := pick_blocks w hn hs.simple _ _ e2
  obtain ⟨i, l, rfl⟩ := hbi
  have := blocks_unique w hB (.cons (.data hb (top_of_outermost w rfl ho)) .nil)
  rw [this, List.append_nil]

example : (init [] none (some ex) ["e", "x", "y"]).toOption.map (fun t => t.columns) = some [en, el, xii, xi, dx, dy] ∧
    (init [] none (some ex.reverse) ["e", "x", "y"]).toOption.map (fun t => t.columns) = some [en, el, xii, xi, dx, dy] := by
  decide +kernel

/-- a column that is not named is dropped without an error -/
theorem C153_unnamed_fails : (init [] none (some ex) ["x"]).toOption.map (fun t => t.columns) = some [xii, xi, dx] := by
  decide +kernel

/-- with an index of an `EnumData`, the order of the columns decides whether the index or the elements are lost -/
theorem C153_ragged_enum_fails : (init [] none (some [en', el', ei']) ["e"]).toOption.map (fun t => t.columns) = some [en', el'] ∧
    (init [] none (some [ei', en', el']) ["e"]).toOption.map (fun t => t.columns) = some [ei', en'] := by
  decide +kernel

/-! ## C154: what a name gives -/

theorem C154_column {r : List String} {ids : Option (List Int)} {L : List Obj} {ns : List String} {t : Table}
    (h : init r ids (some L) ns = .ok t) (hs : Sound L) (hr : ∀ x ∈ L, x.isIndex = true → x.name ∉ r)
    (n : String) (hn : n ∈ t.colnames) : ∃ b ∈ L, b.isIndex = false ∧ b.name = n ∧ ∃ o, t.get n = some o ∧ Outermost L b o := by
  obtain ⟨w, -, -, -, hg⟩ := init_spec h hs.closed hs.simple hr
  obtain ⟨b, hb, hbi, hbn, -, o, ho, -, htop⟩ := hg n hn
  exact ⟨b, hb, hbi, hbn, o, ho, outermost_of_top w hbi htop⟩

/-- an index is found by its name, unless an index of it is found -/
theorem C154_index_partial {r : List String} {ids : Option (List Int)} {L : List Obj} {ns : List String} {t : Table}
    (h : init r ids (some L) ns = .ok t) (hs : Sound L) (hr : ∀ x ∈ L, x.isIndex = true → x.name ∉ r)
    (x : Obj) (hx : x ∈ t.columns) (hxi : x.isIndex = true) :
    ∃ v ∈ L, t.get x.name = some v ∧ Leads x v ∧ ((∀ i n l, Obj.index i n l x ∉ L) → v = x) := by
  obtain ⟨w, w', -, hsub, hg⟩ := init_spec h hs.closed hs.simple hr
  obtain ⟨-, -, h3, h4, -⟩ := init_ok h
  obtain ⟨v, hv, hvL, hxv⟩ := (attach_spec w' (fun x hx => hr x (hsub x hx))).2.1 x hx hxi
  have hnot : x.name ∉ t.colnames := by
    intro hin
    obtain ⟨b, hb, hbi, hbn, -⟩ := hg x.name hin
    rw [w.names b hb x (hsub x hx) hbn, hxi] at hbi
    cases hbi
  have leads : ∀ {v : Obj}, x ∈ v.chain → Leads x v := by
    intro v
    induction v with
    | data => intro h; cases h
    | enum => intro h; cases h
    | index i n l u ih =>
      intro h
      rcases List.mem_cons.1 h with rfl | h
      · exact .refl
      · exact .step i n l u (ih h)
  refine ⟨v, hsub v hvL, ?_, leads hxv, ?_⟩
  · unfold Table.get
    rw [byName_none _ _ _ hnot, h4]
    exact hv
  · intro hnt
    rcases chain_up hxv with h5 | ⟨i, n, l, h5⟩
    · exact h5.symm
    · exact (hnt _ _ _ (w.chain (hsub v hvL) h5)).elim

theorem C154_attribute {r : List String} {ids : Option (List Int)} {L : List Obj} {ns : List String} {t : Table}
    (h : init r ids (some L) ns = .ok t) (hs : Sound L) (hr : ∀ x ∈ L, x.isIndex = true → x.name ∉ r)
    (c : Obj) (hc : c ∈ t.columns) (hcr : c.name ∉ r) : Dict.get? t.attrs c.name = some c := by
  obtain ⟨-, w', -, hsub, -⟩ := init_spec h hs.closed hs.simple hr
  obtain ⟨-, -, -, -, h5⟩ := init_ok h
  rw [h5]
  exact (attach_spec w' (fun x hx => hr x (hsub x hx))).2.2 c hc hcr

/-- a name that no column has gives nothing -/
theorem C154_absent {r : List String} {ids : Option (List Int)} {L : List Obj} {ns : List String} {t : Table}
    (h : init r ids (some L) ns = .ok t) (hs : Sound L) (hr : ∀ x ∈ L, x.isIndex = true → x.name ∉ r)
    (n : String) (hn : ∀ c ∈ L, c.name ≠ n) : t.get n = none := by
  obtain ⟨w, w', -, hsub, hg⟩ := init_spec h hs.closed hs.simple hr
  obtain ⟨-, -, -, h4, -⟩ := init_ok h
  have hnot : n ∉ t.colnames := by
    intro hin
    obtain ⟨b, hb, -, hbn, -⟩ := hg n hin
    exact hn b hb hbn
  unfold Table.get
  rw [byName_none _ _ _ hnot, h4]
  show Dict.get? (attach r t.columns).indices n = none
  cases hv : Dict.get? (attach r t.columns).indices n with
  | none => rfl
  | some v =>
    obtain ⟨x, hx, e⟩ := attach_indices_sub w' (fun x hx => hr x (hsub x hx)) hv
    exact (hn x (hsub x hx) e).elim

example : (init [] none (some ex) []).toOption.map (fun t => (t.get "x", t.get "y", t.get "e", t.get "x_index_index", t.get "z")) =
    some (some xii, some dy, some en, some xii, none) := by
  decide +kernel

/-- the inner one of two indices is not found by its name: the outer one is found instead -/
theorem C154_inner_index_fails : (init [] none (some ex) ["x"]).toOption.map (fun t => (t.get "x_index", Dict.get? t.attrs "x_index")) =
    some (some xii, some xi) := by
  decide +kernel

/-! ## C155: copies -/

/-- what is known about the columns of a table, however they were selected -/
theorem columns_spec {r : List String} {ids : Option (List Int)} {L : List Obj} {ns : List String} {t : Table}
    (h : init r ids (some L) ns = .ok t) (hs : Sound L) (hr : ∀ x ∈ L, x.isIndex = true → x.name ∉ r)
    (hsh : ∀ i n l i' n' l' e, Obj.enum i n l e ∈ L → Obj.enum i' n' l' e ∈ L → n = n') (hnd : ns.Nodup)
    (hel : ∀ n ∈ ns, ∀ c ∈ L, IsElements L c → c.name ≠ n) :
    (t.columns.map Obj.name).Nodup ∧ (targets t.columns).Nodup ∧ Sound t.columns ∧
    (∀ c, Counted t.columns c → Counted L c) ∧ (∀ b ∈ t.columns, b.isIndex = false → ¬ IsElements t.columns b → b.name ∈ t.colnames) ∧
    (t.colnames = [] → t.columns = []) := by
  obtain ⟨w, w', hsim, hsub, hg⟩ := init_spec h hs.closed hs.simple hr
  obtain ⟨h1, h2, h3, h4, h5⟩ := init_ok h
  obtain ⟨hn, htn⟩ := makeIds_ok h1
  by_cases hns : ns = []
  · subst hns
    obtain ⟨e2, cs, e3, -, e4⟩ := C152_colnames_partial h hs
    rw [e2]
    refine ⟨hn, htn, hs, fun c hc => hc, ?_, ?_⟩
    · intro b hb hbi hbe
      rw [e3]
      exact List.mem_map_of_mem ((e4 b hb).2 ⟨hbi, hbe⟩)
    · intro hnil
      rw [hnil] at e3
      have hcs0 : cs = [] := List.map_eq_nil_iff.1 e3.symm
      cases hL : L with
      | nil => rfl
      | cons c cs' =>
        exfalso
        have hcL : c ∈ L := by rw [hL]; simp
        by_cases he : ∃ i n l e, Obj.enum i n l e ∈ L
        · obtain ⟨i, n, l, e, he⟩ := he
          have := (e4 _ he).2 ⟨rfl, by
            rintro ⟨i', n', l', h'⟩
            obtain ⟨-, a, b, d, e⟩ := hs.elements _ _ _ _ h'
            cases e⟩
          rw [hcs0] at this
          cases this
        · have := (e4 c.base (base_mem hs hcL)).2 ⟨base_not_index c, by
            rintro ⟨i', n', l', h'⟩
            exact he ⟨_, _, _, _, h'⟩⟩
          rw [hcs0] at this
          cases this
  · obtain ⟨e1, e2⟩ := arrange_given hns h2
    have hB := pick_blocks w hn hs.simple _ _ e2
    have hel' : ∀ n ∈ ns, n ∉ elems L := by
      intro n hn1 hin
      obtain ⟨i, m, l, e, he, e'⟩ := mem_elems.1 hin
      exact hel n hn1 e (hs.elements _ _ _ _ he).1 ⟨i, m, l, he⟩ e'
    have hnod := blocks_nodup w hs.simple hsh hB hnd hel'
    have hsound : Sound t.columns := ⟨w'.closed, fun i n l i' n' l' e hi => hs.ragged _ _ _ _ _ _ _ (hsub _ hi),
      fun i n l e he => ⟨(hsim.elements i n l e he).1, (hsim.elements i n l e he).2.2⟩,
      fun i n l e he i' n' l' hi => hs.plain _ _ _ _ (hsub _ he) _ _ _ (hsub _ hi)⟩
    have hcn : (t.columns.map Obj.name).Nodup := nodup_names t.columns w.names hsub hnod
    refine ⟨hcn, targets_nodup _ hnod w'.targs, hsound, ?_, ?_, ?_⟩
    · intro c hc
      obtain ⟨n, hn1, a, ha, hca⟩ := (blocks_mem w hB c).1 hc.1
      refine ⟨hsub c hc.1, ?_, ?_⟩
      · intro htg
        obtain ⟨i, m, l, u, hu, e⟩ := mem_targets.1 htg
        have huc := w.names u (hs.closed _ _ _ _ hu) c (hsub c hc.1) e
        subst huc
        apply hc.2.1
        have hin : Obj.index i m l u ∈ a := by
          cases ha with
          | @data j _ k tt hb ht =>
            refine List.mem_append.2 (.inl (ht.2.2 _ hu rfl ?_))
            show u.base = _
            rcases List.mem_append.1 hca with g | g
            · rw [chain_base g, ht.2.1]
            · rw [List.mem_singleton.1 g]; rfl
          | @enum j _ k e' hb =>
            rcases List.mem_cons.1 hca with g | g
            · rw [g] at hu; exact (hs.ragged _ _ _ _ _ _ _ hu).elim
            · rw [List.mem_singleton.1 g] at hu; exact (hs.plain _ _ _ _ hb _ _ _ hu).elim
        exact mem_targets.2 ⟨i, m, l, u, (blocks_mem w hB _).2 ⟨n, hn1, a, ha, hin⟩, rfl⟩
      · intro hin
        have hise := (elems_iff hs hn (hsub c hc.1)).1 hin
        rcases block_base ha hca with e | ⟨i, l, e⟩
        · obtain ⟨i, m, l, hm⟩ := hise
          obtain ⟨-, g, -⟩ := hs.simple.elements _ _ _ _ hm
          rw [base_self g] at e
          exact hel n hn1 c (hsub c hc.1) ⟨i, m, l, hm⟩ e
        · apply hc.2.2
          refine (elems_iff hsound hcn hc.1).2 ?_
          have := (blocks_top w hs.simple hB hn1 e rfl rfl).1
          exact ⟨i, n, l, this⟩
    · intro b hb hbi hbe
      obtain ⟨n, hn1, a, ha, hca⟩ := (blocks_mem w hB b).1 hb
      rw [e1]
      rcases block_base ha hca with e | ⟨i, l, e⟩
      · rw [base_self hbi] at e; rw [e]; exact hn1
      · exact (hbe ⟨i, n, l, (blocks_top w hs.simple hB hn1 e rfl rfl).1⟩).elim
    · intro e; rw [e1] at e; exact (hns e).elim

theorem C155_copy_partial {r : List String} {ids : Option (List Int)} {L : List Obj} {ns : List String} {t : Table}
    (h : init r ids (some L) ns = .ok t) (hs : Sound L) (hr : ∀ x ∈ L, x.isIndex = true → x.name ∉ r) (hl : ∀ c ∈ L, c.len ≠ none)
    (hsh : ∀ i n l i' n' l' e, Obj.enum i n l e ∈ L → Obj.enum i' n' l' e ∈ L → n = n') (hnd : ns.Nodup)
    (hel : ∀ n ∈ ns, ∀ c ∈ L, IsElements L c → c.name ≠ n) :
    ∃ t', t.copy r = .ok t' ∧ t'.ids = t.ids ∧ t'.colnames = t.colnames ∧ (∀ c, c ∈ t'.columns ↔ c ∈ t.columns) ∧
      ∀ n ∈ t.colnames, t'.get n = t.get n := by
  obtain ⟨w, w', hsim, hsub, hg⟩ := init_spec h hs.closed hs.simple hr
  obtain ⟨h1, h2, h3, h4, h5⟩ := init_ok h
  obtain ⟨hn, htn⟩ := makeIds_ok h1
  obtain ⟨hcn, htn', hso, hco, hnm, hnil⟩ := columns_spec h hs hr hsh hnd hel
  have hlc : ∀ c ∈ t.columns, c.len ≠ none := fun c hc => hl c (hsub c hc)
  have hid : makeIds (some t.ids) (some t.columns) = .ok t.ids := by
    cases hcol : t.columns with
    | nil => rfl
    | cons c cs =>
      have := makeIds_total (L := t.columns) (c := c) (by rw [hcol]; simp) w' hcn htn' hsim (hso.elems hcn) (k := t.ids.length) hlc (by
        intro o ho
        have ho' := hco o ho
        cases hlen : o.len with
        | none => exact (hlc o ho.1 hlen).elim
        | some k => rw [makeIds_len h1 ho'.1 hlen ho'.2.1 ho'.2.2]) (ids := some t.ids) (.inr (.inr ⟨_, rfl, rfl⟩))
      rw [hcol] at this
      rw [this]
      show Except.ok (if t.ids.length = t.ids.length then t.ids else _) = _
      rw [if_pos rfl]
  have hr' : ∀ x ∈ t.columns, x.isIndex = true → x.name ∉ r := fun x hx => hr x (hsub x hx)
  have hok : ∃ t', t.copy r = .ok t' ∧ t'.colnames = t.colnames ∧ (∀ c, c ∈ t'.columns ↔ c ∈ t.columns) := by
    by_cases hcn0 : t.colnames = []
    · have hc0 := hnil hcn0
      have hcopy : t.copy r = .ok ⟨t.ids, [], [], [], [], []⟩ := by
        unfold Table.copy
        rw [hc0, hcn0]
        rfl
      exact ⟨_, hcopy, by rw [hcn0], by intro c; rw [hc0]⟩
    · obtain ⟨cs', hcs'⟩ := pick_ok w' hcn hsim t.colnames (by
        intro n hn1
        obtain ⟨b, -, hbi, hbn, hbc, -⟩ := hg n hn1
        exact ⟨b, hbc, hbi, hbn⟩)
      have hB' := pick_blocks w' hcn hsim _ _ hcs'
      have hw2 := blocks_wf w' hsim hB'
      have hsub2 := blocks_sub w' hsim hB'
      have : ∃ dfs, lookupAll (attach r cs').cols t.colnames = .ok dfs := by
        apply lookupAll_ok
        intro n hn1
        obtain ⟨b, -, hbi, hbn, hbc, -⟩ := hg n hn1
        obtain ⟨hbc', -⟩ := blocks_top w' hsim hB' hn1 hbc hbi hbn
        obtain ⟨o, ho, -⟩ := (attach_spec hw2 (fun x hx => hr' x (hsub2 x hx))).1 b hbc' hbi
        rw [← hbn]
        exact has_of_get? ho
      obtain ⟨dfs, hd⟩ := this
      refine ⟨_, init_of hid (arrange_of hcn0 hcs') hd, rfl, ?_⟩
      intro c
      exact ⟨hsub2 c, nothing_lost w' hso hcn hB' hnm c⟩
  obtain ⟨t', ht', hcol', hmem'⟩ := hok
  obtain ⟨g1, -⟩ := init_ok ht'
  refine ⟨t', ht', ?_, hcol', hmem', ?_⟩
  · rw [hid] at g1
    exact (Except.ok.inj g1).symm
  · intro n hn1
    obtain ⟨-, -, -, -, hg'⟩ := init_spec ht' hso.closed hsim hr'
    obtain ⟨b, hb, hbi, hbn, hbc, o, ho, htop, -⟩ := hg n hn1
    obtain ⟨b', hb', hbi', hbn', -, o', ho', -, htop'⟩ := hg' n (by rw [hcol']; exact hn1)
    have : b' = b := w'.names b' hb' b hbc (by rw [hbn', hbn])
    subst this
    rw [ho, ho', top_unique htop htop']

example : ((init [] (some [10, 20]) (some ex) []).toOption.bind (fun t => (t.copy []).toOption)).map (fun t => (t.ids, t.colnames, t.columns, t.get "x")) =
    some ([10, 20], ["x", "y", "e"], [xii, xi, dx, dy, en, el], some xii) := by
  decide +kernel

/-- two `EnumData` with the same elements: a table that cannot be copied -/
theorem C155_shared_fails : ((init [] none (some [el, en, .enum 7 "f" (some 2) el]) ["e", "f"]).toOption.map (fun t => (t.colnames, (t.copy []).toOption.isSome))) =
    some (["e", "f"], false) := by
  decide +kernel

end Verif.TableInit
