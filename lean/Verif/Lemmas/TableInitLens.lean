import Verif.Lemmas.TableInitOrder

/-!
# Lemmas about the selected columns, the names and the lengths
-/

namespace Verif.TableInit
open Verif

/-! ## The selected columns -/

theorem chain_target : ∀ {a : Obj} {i : Nat} {n : String} {l : Option Nat} {t : Obj}, Obj.index i n l t ∈ a.chain → t ∈ a.chain ∨ t = a.base
  | .index j m k u, i, n, l, t, h => by
    rcases List.mem_cons.1 h with h | h
    · obtain ⟨rfl, rfl, rfl, rfl⟩ := Obj.index.inj h
      cases ht : t.isIndex with
      | true => exact .inl (List.mem_cons_of_mem _ (mem_chain_self ht))
      | false => exact .inr (base_self ht).symm
    · rcases chain_target h with h | h
      · exact .inl (List.mem_cons_of_mem _ h)
      · exact .inr h
  | .data _ _ _, _, _, _, _, h => by cases h
  | .enum _ _ _ _, _, _, _, _, h => by cases h

theorem block_sub {L : List Obj} (w : WF L) (hs : Simple L) {n : String} {a : List Obj} (h : Block L n a) : ∀ c ∈ a, c ∈ L := by
  intro c hc
  cases h with
  | data hb ht =>
    rcases List.mem_append.1 hc with hc | hc
    · exact w.chain ht.1 hc
    · rw [List.mem_singleton.1 hc]; exact hb
  | enum hb =>
    rcases List.mem_cons.1 hc with rfl | hc
    · exact hb
    · rw [List.mem_singleton.1 hc]; exact (hs.elements _ _ _ _ hb).1

theorem block_closed {L : List Obj} (hs : Simple L) {n : String} {a : List Obj} (h : Block L n a) {i : Nat} {m : String} {l : Option Nat} {t : Obj}
    (hc : Obj.index i m l t ∈ a) : t ∈ a := by
  cases h with
  | data hb ht =>
    rcases List.mem_append.1 hc with hc | hc
    · rcases chain_target hc with h | h
      · exact List.mem_append.2 (.inl h)
      · rw [h, ht.2.1]; simp
    · cases List.mem_singleton.1 hc
  | enum hb =>
    rcases List.mem_cons.1 hc with h | hc
    · cases h
    · have := (hs.elements _ _ _ _ hb).2.1
      rw [← List.mem_singleton.1 hc] at this
      cases this

theorem blocks_sub {L : List Obj} (w : WF L) (hs : Simple L) {ns : List String} {cs : List Obj} (h : Blocks L ns cs) : ∀ c ∈ cs, c ∈ L := by
  intro c hc
  obtain ⟨n, -, a, ha, hca⟩ := (blocks_mem w h c).1 hc
  exact block_sub w hs ha c hca

theorem blocks_wf {L : List Obj} (w : WF L) (hs : Simple L) {ns : List String} {cs : List Obj} (h : Blocks L ns cs) : WF cs :=
  w.congr (blocks_sub w hs h) (by
    intro i n l t hc
    obtain ⟨m, hm, a, ha, hca⟩ := (blocks_mem w h _).1 hc
    exact (blocks_mem w h _).2 ⟨m, hm, a, ha, block_closed hs ha hca⟩)

theorem blocks_simple {L : List Obj} (w : WF L) (hs : Simple L) {ns : List String} {cs : List Obj} (h : Blocks L ns cs) : Simple cs := by
  refine ⟨fun x hx => hs.ragged x (blocks_sub w hs h x hx), ?_⟩
  intro i n l e hc
  have hL := blocks_sub w hs h _ hc
  refine ⟨?_, (hs.elements i n l e hL).2⟩
  obtain ⟨m, hm, a, ha, hca⟩ := (blocks_mem w h _).1 hc
  refine (blocks_mem w h _).2 ⟨m, hm, a, ha, ?_⟩
  cases ha with
  | data hb ht =>
    rcases List.mem_append.1 hca with hca | hca
    · cases chain_isIndex hca
    · cases List.mem_singleton.1 hca
  | enum hb =>
    rcases List.mem_cons.1 hca with h1 | h1
    · cases h1; simp
    · obtain ⟨i', n', l', h2⟩ := (hs.elements _ _ _ _ hb).2.2
      rw [← List.mem_singleton.1 h1] at h2
      cases h2

/-- a column with its indices is selected as a whole -/
theorem blocks_top {L : List Obj} (w : WF L) (hs : Simple L) {ns : List String} {cs : List Obj} (h : Blocks L ns cs) {n : String} (hn : n ∈ ns)
    {b : Obj} (hb : b ∈ L) (hbi : b.isIndex = false) (hbn : b.name = n) : b ∈ cs ∧ ∀ t, Top cs b t → Top L b t := by
  have hblk : ∀ {ns : List String} {cs : List Obj}, Blocks L ns cs → n ∈ ns → ∃ a, Block L n a := by
    intro ns cs h hn
    induction h with
    | nil => cases hn
    | cons h1 _ ih =>
      rcases List.mem_cons.1 hn with rfl | hn
      · exact ⟨_, h1⟩
      · exact ih hn
  obtain ⟨a, ha⟩ := hblk h hn
  have hin : ∀ c ∈ a, c ∈ cs := fun c hc => (blocks_mem w h c).2 ⟨n, hn, a, ha, hc⟩
  cases ha with
  | @data i _ l t0 hd ht0 =>
    have hbd : b = .data i n l := w.names b hb _ hd hbn
    subst hbd
    refine ⟨hin _ (by simp), ?_⟩
    intro t ht
    have hall : ∀ c ∈ L, c.isIndex = true → c.base = .data i n l → c ∈ cs := by
      intro c hc hci hcb
      exact hin c (List.mem_append.2 (.inl (ht0.2.2 c hc hci hcb)))
    exact ⟨blocks_sub w hs h t ht.1, ht.2.1, fun c hc hci hcb => ht.2.2 c (hall c hc hci hcb) hci hcb⟩
  | @enum i _ l e hd =>
    have hbd : b = .enum i n l e := w.names b hb _ hd hbn
    subst hbd
    refine ⟨hin _ (by simp), ?_⟩
    intro t ht
    refine ⟨blocks_sub w hs h t ht.1, ht.2.1, ?_⟩
    intro c hc hci hcb
    obtain ⟨i', n', l', h2⟩ := hs.ragged c hc hci
    rw [h2] at hcb
    cases hcb

/-! ## Looking up by name -/

theorem byName_none : ∀ (ns : List String) (cs : List Obj) (n : String), n ∉ ns → byName n ns cs = none
  | [], _, _, _ => rfl
  | _ :: _, [], _, _ => rfl
  | m :: ms, c :: cs, n, h => by
    unfold byName
    rw [byName_none ms cs n (fun h' => h (List.mem_cons_of_mem _ h'))]
    rw [if_neg (fun e => h (by rw [e]; simp))]

theorem byName_lookup (d : Dict String Obj) : ∀ (ns : List String) (cs : List Obj) (n : String), lookupAll d ns = .ok cs → n ∈ ns →
    byName n ns cs = Dict.get? d n
  | [], _, _, _, h => by cases h
  | m :: ms, cs, n, h, hn => by
    unfold lookupAll at h
    split at h
    · cases h
    · rename_i c hc
      split at h
      · rename_i cs' hcs
        cases h
        show (match byName n ms cs' with | some d => some d | none => if m = n then some c else none) = _
        by_cases hm : n ∈ ms
        · rw [byName_lookup d ms cs' n hcs hm]
          cases hg : Dict.get? d n with
          | some v => rfl
          | none =>
            by_cases e : m = n
            · rw [e] at hc; rw [hc] at hg; cases hg
            · exact if_neg e
        · rw [byName_none ms cs' n hm]
          rcases List.mem_cons.1 hn with e | e
          · rw [e]
            show (if m = m then some c else none) = _
            rw [if_pos rfl, hc]
          · exact (hm e).elim
      · cases h

theorem lookupAll_ok (d : Dict String Obj) : ∀ (ns : List String), (∀ n ∈ ns, Dict.has d n = true) → ∃ cs, lookupAll d ns = .ok cs
  | [], _ => ⟨[], rfl⟩
  | n :: ns, h => by
    obtain ⟨v, hv⟩ := get?_of_has (h n (by simp))
    obtain ⟨cs, hcs⟩ := lookupAll_ok d ns (fun x hx => h x (List.mem_cons_of_mem _ hx))
    exact ⟨v :: cs, by unfold lookupAll; rw [hv, hcs]⟩

/-! ## The names if none are given -/

/-- the names of the elements of the `EnumData` -/
def elems : List Obj → List String
  | [] => []
  | .enum _ _ _ e :: cs => e.name :: elems cs
  | _ :: cs => elems cs

theorem mem_elems : ∀ {cs : List Obj} {k : String}, k ∈ elems cs ↔ ∃ i n l e, Obj.enum i n l e ∈ cs ∧ e.name = k
  | [], k => by simp [elems]
  | .enum i n l e :: cs, k => by
    rw [elems, List.mem_cons, mem_elems]
    constructor
    · rintro (rfl | ⟨i, n, l, e, h1, h2⟩)
      · exact ⟨i, n, l, e, by simp, rfl⟩
      · exact ⟨i, n, l, e, List.mem_cons_of_mem _ h1, h2⟩
    · rintro ⟨i', n', l', e', h1, h2⟩
      rcases List.mem_cons.1 h1 with h1 | h1
      · cases h1; exact .inl h2.symm
      · exact .inr ⟨i', n', l', e', h1, h2⟩
  | .data i n l :: cs, k => by
    rw [elems, mem_elems]
    · constructor
      · rintro ⟨i, n, l, e, h1, h2⟩
        exact ⟨i, n, l, e, List.mem_cons_of_mem _ h1, h2⟩
      · rintro ⟨i', n', l', e', h1, h2⟩
        rcases List.mem_cons.1 h1 with h1 | h1
        · cases h1
        · exact ⟨i', n', l', e', h1, h2⟩
    · intro _ _ _ _ h; cases h
  | .index i n l t :: cs, k => by
    rw [elems, mem_elems]
    · constructor
      · rintro ⟨i, n, l, e, h1, h2⟩
        exact ⟨i, n, l, e, List.mem_cons_of_mem _ h1, h2⟩
      · rintro ⟨i', n', l', e', h1, h2⟩
        rcases List.mem_cons.1 h1 with h1 | h1
        · cases h1
        · exact ⟨i', n', l', e', h1, h2⟩
    · intro _ _ _ _ h; cases h

theorem nameLoop_spec : ∀ (cs : List Obj) (skip tmp : List String), (cs.map Obj.name).Nodup → (∀ c ∈ cs, c.name ∉ tmp) →
    (∀ i n l e, Obj.enum i n l e ∈ cs → n ∉ skip ∧ n ∉ elems cs) →
    nameLoop cs skip tmp = tmp.filter (fun x => decide (x ∉ elems cs)) ++
      (cs.filter (fun c => !c.isIndex && decide (c.name ∉ skip) && decide (c.name ∉ elems cs))).map Obj.name
  | [], skip, tmp, _, _, _ => by
    simp only [nameLoop, elems, List.filter_nil, List.map_nil, List.append_nil]
    rw [List.filter_eq_self.2]
    intro a _
    simp
  | .index i n l t :: cs, skip, tmp, hn, ht, he => by
    rw [List.map_cons, List.nodup_cons] at hn
    have ih := nameLoop_spec cs skip tmp hn.2 (fun c hc => ht c (List.mem_cons_of_mem _ hc)) (fun i n l e hc => he i n l e (List.mem_cons_of_mem _ hc))
    have e : nameLoop (.index i n l t :: cs) skip tmp = nameLoop cs skip tmp := by
      by_cases h : n ∈ skip
      · exact if_pos h
      · exact if_neg h
    rw [e, ih, List.filter_cons]
    rw [if_neg (by simp [Obj.isIndex])]
    rfl
  | .data i n l :: cs, skip, tmp, hn, ht, he => by
    rw [List.map_cons, List.nodup_cons] at hn
    have htmp : n ∉ tmp := ht (.data i n l) (by simp)
    have hel : elems (.data i n l :: cs) = elems cs := rfl
    have he' : ∀ i n l e, Obj.enum i n l e ∈ cs → n ∉ skip ∧ n ∉ elems cs := fun i n l e hc => he i n l e (List.mem_cons_of_mem _ hc)
    by_cases hs : n ∈ skip
    · have ih := nameLoop_spec cs skip tmp hn.2 (fun c hc => ht c (List.mem_cons_of_mem _ hc)) he'
      have e : nameLoop (.data i n l :: cs) skip tmp = nameLoop cs skip tmp := if_pos hs
      rw [e, ih, hel, List.filter_cons]
      rw [if_neg (by simp [Obj.name, hs])]
    · have ih := nameLoop_spec cs skip (tmp ++ [n]) hn.2 (by
        intro c hc hin
        rcases List.mem_append.1 hin with h | h
        · exact ht c (List.mem_cons_of_mem _ hc) h
        · exact hn.1 (by rw [show (Obj.data i n l).name = c.name from (List.mem_singleton.1 h).symm]; exact List.mem_map_of_mem hc)) he'
      have e : nameLoop (.data i n l :: cs) skip tmp = nameLoop cs skip (if n ∈ tmp then tmp else tmp ++ [n]) := if_neg hs
      rw [e, if_neg htmp, ih, hel, List.filter_append, List.append_assoc]
      congr 1
      by_cases hne : n ∈ elems cs
      · simp [Obj.isIndex, Obj.name, hs, hne]
      · simp [Obj.isIndex, Obj.name, hs, hne]
  | .enum i n l e :: cs, skip, tmp, hn, ht, he => by
    rw [List.map_cons, List.nodup_cons] at hn
    have htmp : n ∉ tmp := ht (.enum i n l e) (by simp)
    obtain ⟨hs, hne⟩ := he i n l e (by simp)
    have hne' : n ≠ e.name ∧ n ∉ elems cs := by
      constructor
      · intro h; exact hne (by rw [h]; exact List.mem_cons_self)
      · intro h; exact hne (List.mem_cons_of_mem _ h)
    have ih := nameLoop_spec cs (e.name :: skip) (tmp.filter (fun x => decide (x ≠ e.name)) ++ [n]) hn.2 (by
      intro c hc hin
      rcases List.mem_append.1 hin with h | h
      · exact ht c (List.mem_cons_of_mem _ hc) (List.mem_filter.1 h).1
      · exact hn.1 (by rw [show (Obj.enum i n l e).name = c.name from (List.mem_singleton.1 h).symm]; exact List.mem_map_of_mem hc)) (by
      intro i' n' l' e' hc
      obtain ⟨h1, h2⟩ := he i' n' l' e' (List.mem_cons_of_mem _ hc)
      refine ⟨?_, fun h => h2 (List.mem_cons_of_mem _ h)⟩
      intro h
      rcases List.mem_cons.1 h with h | h
      · exact h2 (by rw [h]; exact List.mem_cons_self)
      · exact h1 h)
    have e1 : nameLoop (.enum i n l e :: cs) skip tmp = nameLoop cs (e.name :: skip) (tmp.filter (fun x => decide (x ≠ e.name)) ++ [n]) := by
      have : nameLoop (.enum i n l e :: cs) skip tmp = nameLoop cs (e.name :: skip)
        (if n ∈ tmp.filter (fun x => decide (x ≠ e.name)) then tmp.filter (fun x => decide (x ≠ e.name))
          else tmp.filter (fun x => decide (x ≠ e.name)) ++ [n]) := if_neg hs
      rw [this, if_neg (fun h => htmp (List.mem_filter.1 h).1)]
    rw [e1, ih, List.filter_append, List.filter_filter, List.append_assoc]
    have hel : elems (.enum i n l e :: cs) = e.name :: elems cs := rfl
    congr 1
    · apply List.filter_congr
      intro x _
      rw [hel]
      simp [not_or, And.comm]
    · rw [show [n].filter (fun x => decide (x ∉ elems cs)) = [n] from by simp [hne'.2], hel]
      rw [List.filter_cons (x := Obj.enum i n l e), if_pos (by
        rw [show (Obj.enum i n l e).isIndex = false from rfl, show (Obj.enum i n l e).name = n from rfl, decide_eq_true hs,
          decide_eq_true (by rw [← hel]; exact hne)]
        rfl), List.map_cons]
      show n :: List.map Obj.name _ = n :: List.map Obj.name _
      congr 2
      apply List.filter_congr
      intro x _
      simp only [List.mem_cons, not_or]
      generalize x.name = y
      by_cases h1 : y = e.name <;> by_cases h2 : y ∈ skip <;> by_cases h3 : y ∈ elems cs <;> simp [h1, h2, h3]

/-! ## Lengths -/

theorem mem_targets : ∀ {cs : List Obj} {k : String}, k ∈ targets cs ↔ ∃ i n l t, Obj.index i n l t ∈ cs ∧ t.name = k
  | [], k => by simp [targets]
  | .index i n l e :: cs, k => by
    rw [targets, List.mem_cons, mem_targets]
    constructor
    · rintro (rfl | ⟨i, n, l, e, h1, h2⟩)
      · exact ⟨i, n, l, e, by simp, rfl⟩
      · exact ⟨i, n, l, e, List.mem_cons_of_mem _ h1, h2⟩
    · rintro ⟨i', n', l', e', h1, h2⟩
      rcases List.mem_cons.1 h1 with h1 | h1
      · cases h1; exact .inl h2.symm
      · exact .inr ⟨i', n', l', e', h1, h2⟩
  | .data i n l :: cs, k => by
    rw [targets, mem_targets]
    · constructor
      · rintro ⟨i, n, l, e, h1, h2⟩
        exact ⟨i, n, l, e, List.mem_cons_of_mem _ h1, h2⟩
      · rintro ⟨i', n', l', e', h1, h2⟩
        rcases List.mem_cons.1 h1 with h1 | h1
        · cases h1
        · exact ⟨i', n', l', e', h1, h2⟩
    · intro _ _ _ _ h; cases h
  | .enum i n l t :: cs, k => by
    rw [targets, mem_targets]
    · constructor
      · rintro ⟨i, n, l, e, h1, h2⟩
        exact ⟨i, n, l, e, List.mem_cons_of_mem _ h1, h2⟩
      · rintro ⟨i', n', l', e', h1, h2⟩
        rcases List.mem_cons.1 h1 with h1 | h1
        · cases h1
        · exact ⟨i', n', l', e', h1, h2⟩
    · intro _ _ _ _ h; cases h

theorem popLoop_keeps : ∀ (cs : List Obj) (d d' : Dict String Obj) (k : String) (c : Obj), popLoop cs d = .ok d' → Dict.get? d k = some c →
    k ∉ targets cs → k ∉ elems cs → (∀ x ∈ cs, x.name = k → x.len ≠ none) → Dict.get? d' k = some c
  | [], d, d', k, c, h, hd, _, _, _ => by cases h; exact hd
  | .index i n l t :: cs, d, d', k, c, h, hd, ht, he, hl => by
    have hk : k ≠ t.name := fun e => ht (by rw [e]; exact List.mem_cons_self)
    unfold popLoop at h
    split at h
    · refine popLoop_keeps cs _ d' k c h ?_ (fun h => ht (List.mem_cons_of_mem _ h)) he (fun x hx => hl x (List.mem_cons_of_mem _ hx))
      split
      · rename_i hln
        have : k ≠ n := fun e => hl _ List.mem_cons_self e.symm hln
        rw [Dict.get?_del_ne this, Dict.get?_del_ne hk, hd]
      · rw [Dict.get?_del_ne hk, hd]
    · cases h
  | .enum i n l e :: cs, d, d', k, c, h, hd, ht, he, hl => by
    have hk : k ≠ e.name := fun e' => he (by rw [e']; exact List.mem_cons_self)
    unfold popLoop at h
    refine popLoop_keeps cs _ d' k c h ?_ ht (fun h => he (List.mem_cons_of_mem _ h)) (fun x hx => hl x (List.mem_cons_of_mem _ hx))
    split
    · rename_i hln
      have : k ≠ n := fun e => hl _ List.mem_cons_self e.symm hln
      rw [Dict.get?_del_ne this, Dict.get?_del_ne hk, hd]
    · rw [Dict.get?_del_ne hk, hd]
  | .data i n l :: cs, d, d', k, c, h, hd, ht, he, hl => by
    unfold popLoop at h
    refine popLoop_keeps cs _ d' k c h ?_ ht he (fun x hx => hl x (List.mem_cons_of_mem _ hx))
    split
    · rename_i hln
      have : k ≠ n := fun e => hl _ List.mem_cons_self e.symm hln
      rw [Dict.get?_del_ne this, hd]
    · exact hd

theorem mem_del_of {K V : Type} [DecidableEq K] {d : Dict K V} {k : K} {p : K × V} (h : p ∈ Dict.del d k) : p ∈ d ∧ p.1 ≠ k := by
  obtain ⟨h1, h2⟩ := List.mem_filter.1 h
  exact ⟨h1, by simpa using h2⟩

theorem popLoop_sub : ∀ (cs : List Obj) (d d' : Dict String Obj), popLoop cs d = .ok d' → ∀ p ∈ d', p ∈ d ∧ p.1 ∉ targets cs ∧ p.1 ∉ elems cs
  | [], d, d', h, p, hp => by cases h; exact ⟨hp, by simp [targets], by simp [elems]⟩
  | .index i n l t :: cs, d, d', h, p, hp => by
    unfold popLoop at h
    split at h
    · obtain ⟨h1, h2, h3⟩ := popLoop_sub cs _ d' h p hp
      have h4 : p ∈ Dict.del d t.name := by
        split at h1
        · exact (mem_del_of h1).1
        · exact h1
      obtain ⟨h5, h6⟩ := mem_del_of h4
      refine ⟨h5, ?_, h3⟩
      intro h7
      rcases List.mem_cons.1 h7 with h7 | h7
      · exact h6 h7
      · exact h2 h7
    · cases h
  | .enum i n l e :: cs, d, d', h, p, hp => by
    unfold popLoop at h
    obtain ⟨h1, h2, h3⟩ := popLoop_sub cs _ d' h p hp
    have h4 : p ∈ Dict.del d e.name := by
      split at h1
      · exact (mem_del_of h1).1
      · exact h1
    obtain ⟨h5, h6⟩ := mem_del_of h4
    refine ⟨h5, h2, ?_⟩
    intro h7
    rcases List.mem_cons.1 h7 with h7 | h7
    · exact h6 h7
    · exact h3 h7
  | .data i n l :: cs, d, d', h, p, hp => by
    unfold popLoop at h
    obtain ⟨h1, h2, h3⟩ := popLoop_sub cs _ d' h p hp
    refine ⟨?_, h2, h3⟩
    split at h1
    · exact (mem_del_of h1).1
    · exact h1

theorem popLoop_ok : ∀ (cs : List Obj) (d : Dict String Obj), (∀ c ∈ cs, c.len ≠ none) → (targets cs).Nodup →
    (∀ k ∈ targets cs, Dict.has d k = true) → (∀ k ∈ elems cs, k ∉ targets cs) → ∃ d', popLoop cs d = .ok d'
  | [], d, _, _, _, _ => ⟨d, rfl⟩
  | .index i n l t :: cs, d, hl, hn, hd, he => by
    have hln : l ≠ none := hl _ List.mem_cons_self
    have hn' : t.name ∉ targets cs ∧ (targets cs).Nodup := List.nodup_cons.1 hn
    obtain ⟨d', h⟩ := popLoop_ok cs (Dict.del d t.name) (fun c hc => hl c (List.mem_cons_of_mem _ hc)) hn'.2 (by
      intro k hk
      obtain ⟨v, hv⟩ := get?_of_has (hd k (List.mem_cons_of_mem _ hk))
      have : k ≠ t.name := fun e => hn'.1 (by rw [← e]; exact hk)
      exact has_of_get? (v := v) (by rw [Dict.get?_del_ne this, hv])) (fun k hk h => he k hk (List.mem_cons_of_mem _ h))
    refine ⟨d', ?_⟩
    unfold popLoop
    rw [if_pos (hd _ List.mem_cons_self), if_neg hln]
    exact h
  | .enum i n l e :: cs, d, hl, hn, hd, he => by
    have hln : l ≠ none := hl _ List.mem_cons_self
    obtain ⟨d', h⟩ := popLoop_ok cs (Dict.del d e.name) (fun c hc => hl c (List.mem_cons_of_mem _ hc)) hn (by
      intro k hk
      obtain ⟨v, hv⟩ := get?_of_has (hd k hk)
      have : k ≠ e.name := fun e' => he e.name List.mem_cons_self (by rw [← e']; exact hk)
      exact has_of_get? (v := v) (by rw [Dict.get?_del_ne this, hv])) (fun k hk => he k (List.mem_cons_of_mem _ hk))
    refine ⟨d', ?_⟩
    unfold popLoop
    rw [if_neg hln]
    exact h
  | .data i n l :: cs, d, hl, hn, hd, he => by
    have hln : l ≠ none := hl _ List.mem_cons_self
    obtain ⟨d', h⟩ := popLoop_ok cs d (fun c hc => hl c (List.mem_cons_of_mem _ hc)) hn hd he
    refine ⟨d', ?_⟩
    unfold popLoop
    rw [if_neg hln]
    exact h

theorem checkIds_len {ids : Option (List Int)} {lens : List Nat} {is : List Int} (h : checkIds ids lens = .ok is) : ∀ n ∈ lens, n = is.length := by
  unfold checkIds at h
  split at h
  · cases h
  · intro n hn; cases hn
  · rename_i _ n ns
    have key : ns.all (fun i => decide (i = n)) = true → n = is.length → ∀ m ∈ n :: ns, m = is.length := by
      intro hall hlen m hm
      rcases List.mem_cons.1 hm with rfl | hm
      · exact hlen
      · have := List.all_eq_true.1 hall m hm
        simp only [decide_eq_true_eq] at this
        rw [this, hlen]
    split at h
    · rename_i hall
      split at h
      · split at h
        · cases h
        · rename_i hne hc
          cases h
          apply key hall
          have : (ids.getD []) = [] := by
            cases ids with
            | none => rfl
            | some a =>
              cases a with
              | nil => rfl
              | cons x a => exact (hc ⟨rfl, by simp⟩).elim
          rw [this]
          simp [newIds]
      · rename_i hlen
        cases h
        exact key hall (by simpa using hlen)
    · cases h

theorem targets_inj : ∀ (L : List Obj), (targets L).Nodup → ∀ i n l t i' n' l' t', Obj.index i n l t ∈ L → Obj.index i' n' l' t' ∈ L →
    t.name = t'.name → Obj.index i n l t = .index i' n' l' t'
  | [], _, _, _, _, _, _, _, _, _, h, _, _ => by cases h
  | .index j m k u :: L, hn, i, n, l, t, i', n', l', t', h, h', e => by
    have hn' : u.name ∉ targets L ∧ (targets L).Nodup := List.nodup_cons.1 hn
    rcases List.mem_cons.1 h with h1 | h1
    · rcases List.mem_cons.1 h' with h2 | h2
      · rw [h1, h2]
      · obtain ⟨-, -, -, e1⟩ := Obj.index.inj h1
        exact (hn'.1 (mem_targets.2 ⟨i', n', l', t', h2, by rw [← e, e1]⟩)).elim
    · rcases List.mem_cons.1 h' with h2 | h2
      · obtain ⟨-, -, -, e1⟩ := Obj.index.inj h2
        exact (hn'.1 (mem_targets.2 ⟨i, n, l, t, h1, by rw [e, e1]⟩)).elim
      · exact targets_inj L hn'.2 _ _ _ _ _ _ _ _ h1 h2 e
  | .data j m k :: L, hn, i, n, l, t, i', n', l', t', h, h', e => by
    rcases List.mem_cons.1 h with h1 | h1
    · cases h1
    · rcases List.mem_cons.1 h' with h2 | h2
      · cases h2
      · exact targets_inj L hn _ _ _ _ _ _ _ _ h1 h2 e
  | .enum j m k u :: L, hn, i, n, l, t, i', n', l', t', h, h', e => by
    rcases List.mem_cons.1 h with h1 | h1
    · cases h1
    · rcases List.mem_cons.1 h' with h2 | h2
      · cases h2
      · exact targets_inj L hn _ _ _ _ _ _ _ _ h1 h2 e

theorem names_inj : ∀ (L : List Obj), (L.map Obj.name).Nodup → ∀ a ∈ L, ∀ b ∈ L, a.name = b.name → a = b
  | [], _, _, h, _, _, _ => by cases h
  | x :: L, hn, a, ha, b, hb, e => by
    rw [List.map_cons, List.nodup_cons] at hn
    rcases List.mem_cons.1 ha with rfl | ha'
    · rcases List.mem_cons.1 hb with rfl | hb
      · rfl
      · exact (hn.1 (by rw [e]; exact List.mem_map_of_mem hb)).elim
    · rcases List.mem_cons.1 hb with rfl | hb
      · exact (hn.1 (by rw [← e]; exact List.mem_map_of_mem ha')).elim
      · exact names_inj L hn.2 a ha' b hb e

theorem makeIds_cons (ids : Option (List Int)) (c : Obj) (cs : List Obj) : makeIds ids (some (c :: cs)) =
    if ((c :: cs).map Obj.name).Nodup then
      if (targets (c :: cs)).Nodup then
        match popLoop (c :: cs) ((c :: cs).map (fun c => (c.name, c))) with
        | .error e => .error e
        | .ok d => checkIds ids (lengths d)
      else .error .valueError
    else .error .valueError := rfl

/-- what an accepted list of columns satisfies -/
theorem makeIds_ok {ids : Option (List Int)} {L : List Obj} {is : List Int} (h : makeIds ids (some L) = .ok is) :
    (L.map Obj.name).Nodup ∧ (targets L).Nodup := by
  cases L with
  | nil => exact ⟨List.nodup_nil, List.nodup_nil⟩
  | cons c cs =>
    rw [makeIds_cons] at h
    split at h
    · split at h
      · rename_i h1 h2; exact ⟨h1, h2⟩
      · cases h
    · cases h

theorem makeIds_len {ids : Option (List Int)} {L : List Obj} {is : List Int} (h : makeIds ids (some L) = .ok is) {c : Obj} (hc : c ∈ L) {k : Nat}
    (hk : c.len = some k) (ht : c.name ∉ targets L) (he : c.name ∉ elems L) : k = is.length := by
  obtain ⟨hn, htn⟩ := makeIds_ok h
  cases L with
  | nil => cases hc
  | cons x xs =>
    rw [makeIds_cons, if_pos hn, if_pos htn] at h
    split at h
    · cases h
    · rename_i d hd
      have := popLoop_keeps _ _ d c.name c hd (get?_names _ hn c hc) ht he (by
        intro y hy e
        rw [names_inj _ hn y hy c hc e, hk]
        simp)
      refine checkIds_len h k ?_
      unfold lengths
      refine List.mem_map.2 ⟨c, ?_, by rw [hk]; rfl⟩
      exact List.mem_map.2 ⟨_, Dict.mem_of_get? this, rfl⟩

/-- the outermost index of a column is the target of no index -/
theorem top_not_target {L : List Obj} (w : WF L) {b t : Obj} (h : Top L b t) : t.name ∉ targets L := by
  intro ht
  obtain ⟨i, n, l, u, hu, e⟩ := mem_targets.1 ht
  have hut : u = t := w.names u (w.closed i n l u hu) t h.1 e
  subst hut
  have hmem := h.2.2 _ hu rfl (by show u.base = b; exact h.2.1)
  have hlen := chain_length hmem
  rcases hlen with h1 | h1
  · have : (Obj.index i n l u).chain.length = u.chain.length := by rw [h1]
    simp [Obj.chain] at this
  · simp [Obj.chain] at h1
    omega

end Verif.TableInit
