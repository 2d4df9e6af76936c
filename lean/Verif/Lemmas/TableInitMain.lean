import Verif.Lemmas.TableInitLens

/-!
# Lemmas about a constructed table
-/

namespace Verif.TableInit
open Verif

/-- the steps of a successful construction -/
theorem init_ok {r : List String} {ids : Option (List Int)} {cols : Option (List Obj)} {ns : List String} {t : Table} (h : init r ids cols ns = .ok t) :
    makeIds ids cols = .ok t.ids ∧ arrange cols ns = .ok (t.colnames, t.columns) ∧ lookupAll (attach r t.columns).cols t.colnames = .ok t.dfCols ∧
    t.indices = (attach r t.columns).indices ∧ t.attrs = (attach r t.columns).attrs := by
  unfold init at h
  split at h
  · cases h
  · rename_i is h1
    split at h
    · cases h
    · rename_i names cs h2
      split at h
      · cases h
      · rename_i dfs h3
        cases h
        exact ⟨h1, h2, h3, rfl, rfl⟩

theorem init_of {r : List String} {ids : Option (List Int)} {cols : Option (List Obj)} {ns : List String} {is : List Int} {names : List String}
    {cs dfs : List Obj} (h1 : makeIds ids cols = .ok is) (h2 : arrange cols ns = .ok (names, cs)) (h3 : lookupAll (attach r cs).cols names = .ok dfs) :
    init r ids cols ns = .ok ⟨is, names, cs, dfs, (attach r cs).indices, (attach r cs).attrs⟩ := by
  unfold init
  simp only [h1, h2, h3]

theorem arrange_default (L : List Obj) : arrange (some L) [] = .ok (nameLoop L [] [], L) := rfl

theorem arrange_given {L : List Obj} {ns : List String} (hns : ns ≠ []) {names : List String} {cs : List Obj} (h : arrange (some L) ns = .ok (names, cs)) :
    names = ns ∧ pick (orderLoop L ([], L.map (fun c => (c.name, c)))) ns = .ok cs := by
  unfold arrange at h
  rw [if_neg hns] at h
  simp only at h
  split at h
  · rename_i cs' hcs
    cases h
    exact ⟨rfl, hcs⟩
  · cases h

theorem arrange_of {L : List Obj} {ns : List String} (hns : ns ≠ []) {cs : List Obj}
    (h : pick (orderLoop L ([], L.map (fun c => (c.name, c)))) ns = .ok cs) : arrange (some L) ns = .ok (ns, cs) := by
  unfold arrange
  rw [if_neg hns]
  simp only
  rw [h]

/-- names of the default: only columns that are no indices and no elements -/
theorem default_mem {L : List Obj} (hn : (L.map Obj.name).Nodup) (hs : Simple L) {n : String} :
    nameLoop L [] [] = (L.filter (fun c => !c.isIndex && decide (c.name ∉ elems L))).map Obj.name ∧
    (n ∈ nameLoop L [] [] ↔ ∃ b ∈ L, b.isIndex = false ∧ b.name ∉ elems L ∧ b.name = n) := by
  have he : ∀ i n l e, Obj.enum i n l e ∈ L → n ∉ ([] : List String) ∧ n ∉ elems L := by
    intro i n l e h
    refine ⟨by simp, ?_⟩
    intro hel
    obtain ⟨i', n', l', e', h1, h2⟩ := mem_elems.1 hel
    obtain ⟨h3, -, a, b, c, h4⟩ := hs.elements i' n' l' e' h1
    have := names_inj L hn e' h3 _ h h2
    rw [h4] at this
    cases this
  have e := nameLoop_spec L [] [] hn (by simp) he
  rw [List.filter_nil, List.nil_append] at e
  have e' : nameLoop L [] [] = (L.filter (fun c => !c.isIndex && decide (c.name ∉ elems L))).map Obj.name := by
    rw [e]
    congr 1
    apply List.filter_congr
    intro x _
    simp
  refine ⟨e', ?_⟩
  rw [e', List.mem_map]
  constructor
  · rintro ⟨b, hb, rfl⟩
    obtain ⟨h1, h2⟩ := List.mem_filter.1 hb
    simp only [Bool.and_eq_true, Bool.not_eq_true', decide_eq_true_eq] at h2
    exact ⟨b, h1, h2.1, h2.2, rfl⟩
  · rintro ⟨b, h1, h2, h3, rfl⟩
    exact ⟨b, List.mem_filter.2 ⟨h1, by simp [h2, h3]⟩, rfl⟩

/-- what the lookups of a table give -/
theorem init_spec {r : List String} {ids : Option (List Int)} {L : List Obj} {ns : List String} {t : Table} (h : init r ids (some L) ns = .ok t)
    (hcl : ∀ i n l u, Obj.index i n l u ∈ L → u ∈ L) (hs : Simple L) (hr : ∀ x ∈ L, x.isIndex = true → x.name ∉ r) :
    WF L ∧ WF t.columns ∧ Simple t.columns ∧ (∀ c ∈ t.columns, c ∈ L) ∧
    (∀ n ∈ t.colnames, ∃ b ∈ L, b.isIndex = false ∧ b.name = n ∧ b ∈ t.columns ∧ ∃ o, t.get n = some o ∧ Top t.columns b o ∧ Top L b o) := by
  obtain ⟨h1, h2, h3, h4, h5⟩ := init_ok h
  obtain ⟨hn, htn⟩ := makeIds_ok h1
  have w : WF L := ⟨names_inj L hn, targets_inj L htn, hcl⟩
  have key : ∀ n ∈ t.colnames, t.get n = Dict.get? (attach r t.columns).cols n := by
    intro n hn'
    unfold Table.get
    rw [byName_lookup _ _ _ n h3 hn']
    cases hg : Dict.get? (attach r t.columns).cols n with
    | some v => rfl
    | none =>
      exfalso
      have : ∀ (ns : List String) (cs : List Obj), lookupAll (attach r t.columns).cols ns = .ok cs → n ∉ ns := by
        intro ns
        induction ns with
        | nil => intros; simp
        | cons m ms ih =>
          intro cs hcs
          unfold lookupAll at hcs
          split at hcs
          · cases hcs
          · rename_i c hc
            split at hcs
            · rename_i cs' hcs'
              intro hin
              rcases List.mem_cons.1 hin with e | e
              · rw [e, hc] at hg; cases hg
              · exact ih _ hcs' e
            · cases hcs
      exact this _ _ h3 hn'
  by_cases hns : ns = []
  · subst hns
    rw [arrange_default] at h2
    have e1 : t.colnames = nameLoop L [] [] := (Prod.mk.inj (Except.ok.inj h2)).1.symm
    have e2 : t.columns = L := (Prod.mk.inj (Except.ok.inj h2)).2.symm
    rw [e2] at key ⊢
    refine ⟨w, w, hs, fun c hc => hc, ?_⟩
    intro n hn'
    rw [key n hn']
    rw [e1] at hn'
    obtain ⟨b, hb, hbi, -, hbn⟩ := ((default_mem hn hs).2).1 hn'
    obtain ⟨o, ho, hto⟩ := (attach_spec w hr).1 b hb hbi
    exact ⟨b, hb, hbi, hbn, hb, o, by rw [← hbn]; exact ho, hto, hto⟩
  · obtain ⟨e1, e2⟩ := arrange_given hns h2
    have hB := pick_blocks w hn hs _ _ e2
    have hsub := blocks_sub w hs hB
    have w' := blocks_wf w hs hB
    refine ⟨w, w', blocks_simple w hs hB, hsub, ?_⟩
    intro n hn'
    rw [key n hn']
    rw [e1] at hn'
    have : ∃ b ∈ L, b.isIndex = false ∧ b.name = n := by
      have hblk : ∀ {ns : List String} {cs : List Obj}, Blocks L ns cs → n ∈ ns → ∃ a, Block L n a := by
        intro ns cs h hn
        induction h with
        | nil => cases hn
        | cons h1 _ ih =>
          rcases List.mem_cons.1 hn with rfl | hn
          · exact ⟨_, h1⟩
          · exact ih hn
      obtain ⟨a, ha⟩ := hblk hB hn'
      cases ha with
      | data hb _ => exact ⟨_, hb, rfl, rfl⟩
      | enum hb => exact ⟨_, hb, rfl, rfl⟩
    obtain ⟨b, hb, hbi, hbn⟩ := this
    obtain ⟨hbc, htop⟩ := blocks_top w hs hB hn' hb hbi hbn
    obtain ⟨o, ho, hto⟩ := (attach_spec w' (fun x hx => hr x (hsub x hx))).1 b hbc hbi
    exact ⟨b, hb, hbi, hbn, hbc, o, by rw [← hbn]; exact ho, hto, htop o hto⟩

/-! ## Lengths -/

/-- a column whose length counts -/
def Counted (L : List Obj) (c : Obj) : Prop := c ∈ L ∧ c.name ∉ targets L ∧ c.name ∉ elems L

theorem mem_names {L : List Obj} {p : String × Obj} (h : p ∈ L.map (fun c => (c.name, c))) : p.2 ∈ L ∧ p.1 = p.2.name := by
  obtain ⟨c, hc, rfl⟩ := List.mem_map.1 h
  exact ⟨hc, rfl⟩

theorem lengths_mem {L : List Obj} (hn : (L.map Obj.name).Nodup) (hl : ∀ c ∈ L, c.len ≠ none) {d : Dict String Obj}
    (h : popLoop L (L.map (fun c => (c.name, c))) = .ok d) (k : Nat) : k ∈ lengths d ↔ ∃ c, Counted L c ∧ c.len = some k := by
  unfold lengths Dict.values
  constructor
  · intro hk
    obtain ⟨c, hc, e⟩ := List.mem_map.1 hk
    obtain ⟨p, hp, rfl⟩ := List.mem_map.1 hc
    obtain ⟨h1, h2, h3⟩ := popLoop_sub _ _ _ h p hp
    obtain ⟨h4, h5⟩ := mem_names h1
    refine ⟨p.2, ⟨h4, by rw [← h5]; exact h2, by rw [← h5]; exact h3⟩, ?_⟩
    cases e' : p.2.len with
    | none => exact (hl _ h4 e').elim
    | some m => rw [e'] at e; rw [← e]; rfl
  · rintro ⟨c, ⟨hc, ht, he⟩, hk⟩
    have := popLoop_keeps _ _ d c.name c h (get?_names _ hn c hc) ht he (fun x hx _ => hl x hx)
    exact List.mem_map.2 ⟨c, List.mem_map.2 ⟨_, Dict.mem_of_get? this, rfl⟩, by rw [hk]; rfl⟩

theorem checkIds_ok {ids : Option (List Int)} {lens : List Nat} {k : Nat} (h : ∀ n, n ∈ lens ↔ n = k)
    (hid : ids = none ∨ ids = some [] ∨ ∃ is, ids = some is ∧ is.length = k) :
    checkIds ids lens = .ok (if (ids.getD []).length = k then ids.getD [] else newIds k) := by
  cases lens with
  | nil => exact absurd ((h k).2 rfl) (by simp)
  | cons n ns =>
    have hnk : n = k := (h n).1 (by simp)
    subst hnk
    have hall : ns.all (fun i => decide (i = n)) = true := by
      rw [List.all_eq_true]
      intro x hx
      exact decide_eq_true ((h x).1 (List.mem_cons_of_mem _ hx))
    unfold checkIds
    simp only
    rw [if_pos hall]
    by_cases e : (ids.getD []).length = n
    · rw [if_neg (by simp [e]), if_pos e]
    · rw [if_pos (Ne.symm e), if_neg e]
      have : ids.getD [] = [] := by
        rcases hid with rfl | rfl | ⟨is, rfl, hi⟩
        · rfl
        · rfl
        · exact (e hi).elim
      rw [if_neg (by rw [this]; simp), this, List.nil_append]

theorem checkIds_congr {ids : Option (List Int)} {a b : List Nat} (h : ∀ n, n ∈ a ↔ n ∈ b) {is : List Int} (ha : checkIds ids a = .ok is) :
    checkIds ids b = .ok is := by
  cases a with
  | nil =>
    cases b with
    | nil => exact ha
    | cons y ys => exact absurd ((h y).2 (by simp)) (by simp)
  | cons x xs =>
    cases b with
    | nil => exact absurd ((h x).1 (by simp)) (by simp)
    | cons y ys =>
      have hxs : xs.all (fun i => decide (i = x)) = true := by
        unfold checkIds at ha
        simp only at ha
        split at ha
        · assumption
        · cases ha
      have hall : ∀ n ∈ x :: xs, n = x := by
        intro n hn
        rcases List.mem_cons.1 hn with h | h
        · exact h
        · have := List.all_eq_true.1 hxs n h
          simpa using this
      have hyx : y = x := hall y ((h y).2 (by simp))
      subst hyx
      have hys : ys.all (fun i => decide (i = y)) = true := by
        rw [List.all_eq_true]
        intro n hn
        exact decide_eq_true (hall n ((h n).2 (List.mem_cons_of_mem _ hn)))
      unfold checkIds at ha ⊢
      simp only at ha ⊢
      rw [if_pos hys]
      rw [if_pos hxs] at ha
      exact ha

theorem popLoop_total {L : List Obj} (hn : (L.map Obj.name).Nodup) (htn : (targets L).Nodup) (hcl : ∀ i n l u, Obj.index i n l u ∈ L → u ∈ L)
    (hel : ∀ k ∈ elems L, k ∉ targets L) (hl : ∀ c ∈ L, c.len ≠ none) : ∃ d, popLoop L (L.map (fun c => (c.name, c))) = .ok d := by
  refine popLoop_ok L _ hl htn ?_ hel
  intro k hk
  obtain ⟨i, n, l, u, hu, rfl⟩ := mem_targets.1 hk
  exact has_of_get? (get?_names L hn u (hcl i n l u hu))

theorem counted_exists {L : List Obj} (w : WF L) (hs : Simple L) {c : Obj} (hc : c ∈ L) : ∃ o, Counted L o := by
  by_cases he : ∃ i n l e, Obj.enum i n l e ∈ L
  · obtain ⟨i, n, l, e, h⟩ := he
    refine ⟨_, h, ?_, ?_⟩
    · intro ht
      obtain ⟨i', n', l', u, hu, e'⟩ := mem_targets.1 ht
      have := w.names u (w.closed _ _ _ _ hu) _ h e'
      subst this
      obtain ⟨_, _, _, e3⟩ := hs.ragged _ hu rfl
      cases e3
    · intro hel
      obtain ⟨i', n', l', e', h1, h2⟩ := mem_elems.1 hel
      obtain ⟨h3, -, a, b, c, h4⟩ := hs.elements i' n' l' e' h1
      have := w.names e' h3 _ h h2
      rw [h4] at this
      cases this
  · obtain ⟨o, -, ho⟩ := (attach_spec (r := []) w (by simp)).1 c.base (w.base hc) (base_not_index c)
    refine ⟨o, ho.1, top_not_target w ho, ?_⟩
    intro hel
    obtain ⟨i, n, l, e, h1, -⟩ := mem_elems.1 hel
    exact he ⟨i, n, l, e, h1⟩

theorem makeIds_total {L : List Obj} {c : Obj} (hc : c ∈ L) (w : WF L) (hn : (L.map Obj.name).Nodup) (htn : (targets L).Nodup) (hs : Simple L)
    (hel : ∀ k ∈ elems L, k ∉ targets L) {k : Nat} (hl : ∀ c ∈ L, c.len ≠ none) (hk : ∀ c, Counted L c → c.len = some k) {ids : Option (List Int)}
    (hid : ids = none ∨ ids = some [] ∨ ∃ is, ids = some is ∧ is.length = k) :
    makeIds ids (some L) = .ok (if (ids.getD []).length = k then ids.getD [] else newIds k) := by
  obtain ⟨d, hd⟩ := popLoop_total hn htn w.closed hel hl
  cases L with
  | nil => cases hc
  | cons x xs =>
    rw [makeIds_cons, if_pos hn, if_pos htn, hd]
    apply checkIds_ok _ hid
    intro m
    rw [lengths_mem hn hl hd]
    constructor
    · rintro ⟨o, ho, hm⟩
      rw [hk o ho] at hm
      cases hm; rfl
    · rintro rfl
      obtain ⟨o, ho⟩ := counted_exists w hs hc
      exact ⟨o, ho, hk o ho⟩

theorem elems_congr {L L' : List Obj} (h : ∀ c, c ∈ L ↔ c ∈ L') (k : String) : k ∈ elems L ↔ k ∈ elems L' := by
  rw [mem_elems, mem_elems]
  simp only [h]

theorem targets_congr {L L' : List Obj} (h : ∀ c, c ∈ L ↔ c ∈ L') (k : String) : k ∈ targets L ↔ k ∈ targets L' := by
  rw [mem_targets, mem_targets]
  simp only [h]

theorem targets_perm {L L' : List Obj} (h : L.Perm L') : (targets L).Perm (targets L') := by
  induction h with
  | nil => exact .refl _
  | cons x _ ih => cases x <;> simp only [targets] <;> first | exact ih | exact ih.cons _
  | swap x y l =>
    cases x <;> cases y <;> simp only [targets] <;> first | exact .refl _ | exact .swap _ _ _
  | trans _ _ ih1 ih2 => exact ih1.trans ih2

theorem makeIds_perm {L L' : List Obj} (hp : L.Perm L') (hcl : ∀ i n l u, Obj.index i n l u ∈ L → u ∈ L)
    (hel : ∀ k ∈ elems L, k ∉ targets L) (hl : ∀ c ∈ L, c.len ≠ none) {ids : Option (List Int)} {is : List Int} (h : makeIds ids (some L) = .ok is) :
    makeIds ids (some L') = .ok is := by
  obtain ⟨hn, htn⟩ := makeIds_ok h
  have hm : ∀ c, c ∈ L ↔ c ∈ L' := fun c => hp.mem_iff
  have hn' : (L'.map Obj.name).Nodup := (hp.map _).nodup_iff.1 hn
  have htn' := (targets_perm hp).nodup_iff.1 htn
  have hl' : ∀ c ∈ L', c.len ≠ none := fun c hc => hl c ((hm c).2 hc)
  obtain ⟨d, hd⟩ := popLoop_total hn htn hcl hel hl
  obtain ⟨d', hd'⟩ := popLoop_total hn' htn' (fun i n l u hu => (hm _).1 (hcl i n l u ((hm _).2 hu)))
    (fun k hk hk' => hel k ((elems_congr hm k).2 hk) ((targets_congr hm k).2 hk')) hl'
  cases L with
  | nil =>
    cases L' with
    | nil => exact h
    | cons y ys => exact absurd ((hm y).2 (by simp)) (by simp)
  | cons x xs =>
    cases L' with
    | nil => exact absurd ((hm x).1 (by simp)) (by simp)
    | cons y ys =>
      rw [makeIds_cons, if_pos hn, if_pos htn, hd] at h
      rw [makeIds_cons, if_pos hn', if_pos htn', hd']
      refine checkIds_congr ?_ h
      intro n
      rw [lengths_mem hn hl hd, lengths_mem hn' hl' hd']
      unfold Counted
      simp only [hm, elems_congr hm, targets_congr hm]

/-! ## Copies -/

theorem chain_nodup : ∀ (c : Obj), c.chain.Nodup
  | .index i n l t => by
    show (Obj.index i n l t :: t.chain).Nodup
    rw [List.nodup_cons]
    refine ⟨?_, chain_nodup t⟩
    intro h
    rcases chain_length h with e | e
    · have : (Obj.index i n l t).chain.length = t.chain.length := by rw [e]
      simp [Obj.chain] at this
    · simp [Obj.chain] at e
      omega
  | .data _ _ _ => List.nodup_nil
  | .enum _ _ _ _ => List.nodup_nil

theorem block_nodup {L : List Obj} (hs : Simple L) {n : String} {a : List Obj} (h : Block L n a) : a.Nodup := by
  cases h with
  | @data i _ l t hb ht =>
    rw [List.nodup_append]
    refine ⟨chain_nodup t, by simp, ?_⟩
    intro x hx y hy e
    subst e
    have := chain_isIndex hx
    rw [List.mem_singleton.1 hy] at this
    cases this
  | @enum i _ l e hb =>
    rw [List.nodup_cons]
    refine ⟨?_, by simp⟩
    intro h
    obtain ⟨_, _, _, e3⟩ := (hs.elements _ _ _ _ hb).2.2
    rw [← List.mem_singleton.1 h] at e3
    cases e3

/-- a member of a block either leads to the column of that name, or is the elements of the `EnumData` of that name -/
theorem block_base {L : List Obj} {n : String} {a : List Obj} (h : Block L n a) {c : Obj} (hc : c ∈ a) :
    (c.base.name = n) ∨ (∃ i l, Obj.enum i n l c ∈ L) := by
  cases h with
  | @data i _ l t hb ht =>
    left
    rcases List.mem_append.1 hc with h | h
    · rw [chain_base h, ht.2.1]; rfl
    · rw [List.mem_singleton.1 h]; rfl
  | @enum i _ l e hb =>
    rcases List.mem_cons.1 hc with h | h
    · left; rw [h]; rfl
    · right; rw [List.mem_singleton.1 h]; exact ⟨i, l, hb⟩

theorem blocks_nodup {L : List Obj} (w : WF L) (hs : Simple L) (hsh : ∀ i n l i' n' l' e, Obj.enum i n l e ∈ L → Obj.enum i' n' l' e ∈ L → n = n') :
    ∀ {ns : List String} {cs : List Obj}, Blocks L ns cs → ns.Nodup → (∀ n ∈ ns, n ∉ elems L) → cs.Nodup
  | [], _, .nil, _, _ => List.nodup_nil
  | n :: ns, _, .cons (a := a) (cs := cs) h1 h2, hn, hel => by
    rw [List.nodup_cons] at hn
    rw [List.nodup_append]
    refine ⟨block_nodup hs h1, blocks_nodup w hs hsh h2 hn.2 (fun m hm => hel m (List.mem_cons_of_mem _ hm)), ?_⟩
    intro x hx y hy e
    subst e
    obtain ⟨m, hm, b, hb, hxb⟩ := (blocks_mem w h2 x).1 hy
    have hmn : m ≠ n := fun e => hn.1 (by rw [← e]; exact hm)
    have helx : ∀ k j l, Obj.enum j k l x ∈ L → x.base.name ∈ elems L := by
      intro k j l hx
      obtain ⟨-, hxi, -⟩ := hs.elements _ _ _ _ hx
      rw [base_self hxi]
      exact mem_elems.2 ⟨j, k, l, x, hx, rfl⟩
    rcases block_base h1 hx with e1 | ⟨i, l, e1⟩
    · rcases block_base hb hxb with e2 | ⟨i', l', e2⟩
      · exact hmn (by rw [← e1, ← e2])
      · exact hel n (by simp) (by rw [← e1]; exact helx _ _ _ e2)
    · rcases block_base hb hxb with e2 | ⟨i', l', e2⟩
      · exact hel m (List.mem_cons_of_mem _ hm) (by rw [← e2]; exact helx _ _ _ e1)
      · exact hmn (hsh _ _ _ _ _ _ _ e2 e1)

theorem nodup_names {L : List Obj} : ∀ (cs : List Obj), (∀ a ∈ L, ∀ b ∈ L, a.name = b.name → a = b) → (∀ c ∈ cs, c ∈ L) → cs.Nodup →
    (cs.map Obj.name).Nodup
  | [], _, _, _ => List.nodup_nil
  | c :: cs, hi, hc, hn => by
    rw [List.nodup_cons] at hn
    rw [List.map_cons, List.nodup_cons]
    refine ⟨?_, nodup_names cs hi (fun x hx => hc x (List.mem_cons_of_mem _ hx)) hn.2⟩
    intro h
    obtain ⟨d, hd, e⟩ := List.mem_map.1 h
    rw [hi d (hc d (List.mem_cons_of_mem _ hd)) c (hc c (by simp)) e] at hd
    exact hn.1 hd

theorem targets_nodup : ∀ (cs : List Obj), cs.Nodup → (∀ i n l t i' n' l' t', Obj.index i n l t ∈ cs → Obj.index i' n' l' t' ∈ cs →
    t.name = t'.name → Obj.index i n l t = .index i' n' l' t') → (targets cs).Nodup
  | [], _, _ => List.nodup_nil
  | .index i n l t :: cs, hn, h => by
    rw [List.nodup_cons] at hn
    show (t.name :: targets cs).Nodup
    rw [List.nodup_cons]
    refine ⟨?_, targets_nodup cs hn.2 (fun a b c d a' b' c' d' h1 h2 => h a b c d a' b' c' d' (List.mem_cons_of_mem _ h1) (List.mem_cons_of_mem _ h2))⟩
    intro hin
    obtain ⟨i', n', l', t', h1, e⟩ := mem_targets.1 hin
    rw [h _ _ _ _ _ _ _ _ (List.mem_cons_of_mem _ h1) List.mem_cons_self e] at h1
    exact hn.1 h1
  | .data i n l :: cs, hn, h => by
    rw [List.nodup_cons] at hn
    exact targets_nodup cs hn.2 (fun a b c d a' b' c' d' h1 h2 => h a b c d a' b' c' d' (List.mem_cons_of_mem _ h1) (List.mem_cons_of_mem _ h2))
  | .enum i n l e :: cs, hn, h => by
    rw [List.nodup_cons] at hn
    exact targets_nodup cs hn.2 (fun a b c d a' b' c' d' h1 h2 => h a b c d a' b' c' d' (List.mem_cons_of_mem _ h1) (List.mem_cons_of_mem _ h2))

end Verif.TableInit
