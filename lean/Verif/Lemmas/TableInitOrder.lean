import Verif.Lemmas.TableInit

/-!
# Lemmas about the order of the columns, their names and their lengths
-/

namespace Verif.TableInit
open Verif

/-! ## The columns in the order of the names -/

/-- the indices lead to columns that are no `EnumData`, and the elements of an `EnumData` are among the columns -/
structure Simple (L : List Obj) : Prop where
  ragged : ∀ x ∈ L, x.isIndex = true → ∃ i n l, x.base = .data i n l
  elements : ∀ i n l e, Obj.enum i n l e ∈ L → e ∈ L ∧ e.isIndex = false ∧ ∃ i n l, e = .data i n l

structure Ord (L P : List Obj) (s : Dict String (List Obj) × Dict String Obj) : Prop where
  key : ∀ k, Dict.has s.1 k = true → ∃ b ∈ L, b.isIndex = false ∧ b.name = k
  dat : ∀ i n l, Obj.data i n l ∈ L → (∃ c ∈ P, c.base = .data i n l) → ∃ t, Dict.get? s.1 n = some t.chain ∧ Top P (.data i n l) t
  none : ∀ b ∈ L, b.isIndex = false → (∀ c ∈ P, c.base ≠ b) → Dict.get? s.1 b.name = none
  enm : ∀ i n l e, Obj.enum i n l e ∈ L → Obj.enum i n l e ∈ P → Dict.get? s.1 n = some [.enum i n l e] ∧ Dict.get? s.2 n = some e
  fld : ∀ i n l, Obj.data i n l ∈ L → Dict.get? s.2 n = some (.data i n l)

theorem ord_fold {L : List Obj} (w : WF L) (hs : Simple L) : ∀ (cs P : List Obj) (s : Dict String (List Obj) × Dict String Obj),
    (∀ c ∈ P, c ∈ L) → (∀ c ∈ cs, c ∈ L) → Ord L P s → ∃ Q, (∀ c, c ∈ Q ↔ c ∈ P ∨ c ∈ cs) ∧ Ord L Q (orderLoop cs s)
  | [], P, s, _, _, h => ⟨P, by simp, h⟩
  | c :: cs, P, s, hP, hcs, h => by
    have hc := hcs c (by simp)
    have next : ∀ s', Ord L (c :: P) s' → orderLoop (c :: cs) s = orderLoop cs s' →
        ∃ Q, (∀ x, x ∈ Q ↔ x ∈ P ∨ x ∈ c :: cs) ∧ Ord L Q (orderLoop (c :: cs) s) := by
      intro s' h' e
      obtain ⟨Q, h1, h2⟩ := ord_fold w hs cs (c :: P) s' (by
        intro x hx
        rcases List.mem_cons.1 hx with rfl | hx
        · exact hc
        · exact hP x hx) (fun x hx => hcs x (List.mem_cons_of_mem _ hx)) h'
      refine ⟨Q, ?_, by rw [e]; exact h2⟩
      intro x
      rw [h1 x, List.mem_cons, List.mem_cons]
      constructor
      · rintro ((h | h) | h)
        · exact .inr (.inl h)
        · exact .inl h
        · exact .inr (.inr h)
      · rintro (h | h | h)
        · exact .inl (.inr h)
        · exact .inl (.inl h)
        · exact .inr h
    cases c with
    | data i n l =>
      have hbase : (Obj.data i n l).base = .data i n l := rfl
      have hother : ∀ b ∈ L, b ≠ .data i n l → b.name ≠ n := fun b hb hne e => hne (w.names b hb _ hc e)
      by_cases hk : Dict.has s.1 n = true
      · refine next s ?_ (if_pos hk)
        have hex : ∃ c ∈ P, c.base = .data i n l := by
          apply Classical.byContradiction
          intro hne
          have := h.none _ hc rfl (fun c' h1 h2 => hne ⟨c', h1, h2⟩)
          rw [Dict.get?_eq_none_iff] at this
          exact this (Dict.has_iff.1 hk)
        refine ⟨h.key, ?_, ?_, ?_, h.fld⟩
        · intro i' n' l' hL hex'
          have : ∃ c ∈ P, c.base = .data i' n' l' := by
            obtain ⟨c, h1, h2⟩ := hex'
            rcases List.mem_cons.1 h1 with rfl | h1
            · rw [← h2]; exact hex
            · exact ⟨c, h1, h2⟩
          obtain ⟨t, h1, h2⟩ := h.dat i' n' l' hL this
          exact ⟨t, h1, top_other h2 (fun h => by cases h)⟩
        · intro b hb hbi hne
          exact h.none b hb hbi (fun c' h1 => hne c' (List.mem_cons_of_mem _ h1))
        · intro i' n' l' e' hL hm
          rcases List.mem_cons.1 hm with h1 | h1
          · cases h1
          · exact h.enm i' n' l' e' hL h1
      · refine next (Dict.set s.1 n [], s.2) ?_ (if_neg hk)
        have hne : ∀ c ∈ P, c.base ≠ .data i n l := by
          intro c h1 h2
          obtain ⟨t, h3, -⟩ := h.dat i n l hc ⟨c, h1, h2⟩
          exact hk (has_of_get? h3)
        refine ⟨?_, ?_, ?_, ?_, h.fld⟩
        · intro k hk'
          rw [has_set] at hk'
          rcases hk' with rfl | hk'
          · exact ⟨_, hc, rfl, rfl⟩
          · exact h.key k hk'
        · intro i' n' l' hL hex'
          show ∃ t : Obj, Dict.get? (Dict.set s.1 n []) n' = some t.chain ∧ _
          by_cases he : Obj.data i' n' l' = .data i n l
          · cases he
            exact ⟨.data i n l, Dict.get?_set_self, top_new (P := P) (c := .data i n l) hne⟩
          · obtain ⟨c, h1, h2⟩ := hex'
            rcases List.mem_cons.1 h1 with rfl | h1
            · exact (he h2.symm).elim
            · obtain ⟨t, h3, h4⟩ := h.dat i' n' l' hL ⟨c, h1, h2⟩
              exact ⟨t, by rw [Dict.get?_set_ne (show n' ≠ n from hother _ hL he)]; exact h3, top_other h4 (fun h => by cases h)⟩
        · intro b hb hbi hn
          show Dict.get? (Dict.set s.1 n []) b.name = Option.none
          rw [Dict.get?_set_ne (hother b hb (fun e => hn (.data i n l) (by simp) e.symm))]
          exact h.none b hb hbi (fun c' h1 => hn c' (List.mem_cons_of_mem _ h1))
        · intro i' n' l' e' hL hm
          rcases List.mem_cons.1 hm with h1 | h1
          · cases h1
          · obtain ⟨h2, h3⟩ := h.enm i' n' l' e' hL h1
            refine ⟨?_, h3⟩
            show Dict.get? (Dict.set s.1 n []) n' = _
            rw [Dict.get?_set_ne (show n' ≠ n from hother _ hL (fun e => by cases e))]
            exact h2
    | enum i n l e =>
      have hother : ∀ b ∈ L, b ≠ .enum i n l e → b.name ≠ n := fun b hb hne e => hne (w.names b hb _ hc e)
      have hbase : ∀ c ∈ L, c.base = .enum i n l e → c = .enum i n l e := by
        intro x hx hb
        cases hxi : x.isIndex with
        | true =>
          obtain ⟨i', n', l', e'⟩ := hs.ragged x hx hxi
          rw [e'] at hb
          cases hb
        | false => rw [← hb, base_self hxi]
      by_cases hk : Dict.has s.1 n = true
      · refine next s ?_ (if_pos hk)
        have hex : Obj.enum i n l e ∈ P := by
          apply Classical.byContradiction
          intro hne
          have := h.none _ hc rfl (fun c' h1 h2 => hne (by rw [← hbase c' (hP c' h1) h2]; exact h1))
          rw [Dict.get?_eq_none_iff] at this
          exact this (Dict.has_iff.1 hk)
        refine ⟨h.key, ?_, ?_, ?_, h.fld⟩
        · intro i' n' l' hL hex'
          obtain ⟨c, h1, h2⟩ := hex'
          rcases List.mem_cons.1 h1 with rfl | h1
          · cases h2
          · obtain ⟨t, h3, h4⟩ := h.dat i' n' l' hL ⟨c, h1, h2⟩
            exact ⟨t, h3, top_other h4 (fun h => by cases h)⟩
        · intro b hb hbi hne
          exact h.none b hb hbi (fun c' h1 => hne c' (List.mem_cons_of_mem _ h1))
        · intro i' n' l' e' hL hm
          rcases List.mem_cons.1 hm with h1 | h1
          · cases h1
            exact h.enm i n l e hc hex
          · exact h.enm i' n' l' e' hL h1
      · refine next (Dict.set s.1 n [.enum i n l e], Dict.set s.2 n e) ?_ (if_neg hk)
        refine ⟨?_, ?_, ?_, ?_, ?_⟩
        · intro k hk'
          rw [has_set] at hk'
          rcases hk' with rfl | hk'
          · exact ⟨_, hc, rfl, rfl⟩
          · exact h.key k hk'
        · intro i' n' l' hL hex'
          show ∃ t : Obj, Dict.get? (Dict.set s.1 n [.enum i n l e]) n' = some t.chain ∧ _
          obtain ⟨c, h1, h2⟩ := hex'
          rcases List.mem_cons.1 h1 with rfl | h1
          · cases h2
          · obtain ⟨t, h3, h4⟩ := h.dat i' n' l' hL ⟨c, h1, h2⟩
            exact ⟨t, by rw [Dict.get?_set_ne (show n' ≠ n from hother _ hL (fun e => by cases e))]; exact h3, top_other h4 (fun h => by cases h)⟩
        · intro b hb hbi hn
          show Dict.get? (Dict.set s.1 n [.enum i n l e]) b.name = Option.none
          rw [Dict.get?_set_ne (hother b hb (fun e' => hn (.enum i n l e) (by simp) e'.symm))]
          exact h.none b hb hbi (fun c' h1 => hn c' (List.mem_cons_of_mem _ h1))
        · intro i' n' l' e' hL hm
          show Dict.get? (Dict.set s.1 n [.enum i n l e]) n' = _ ∧ Dict.get? (Dict.set s.2 n e) n' = _
          by_cases he : Obj.enum i' n' l' e' = .enum i n l e
          · cases he
            exact ⟨Dict.get?_set_self, Dict.get?_set_self⟩
          · rcases List.mem_cons.1 hm with h1 | h1
            · exact (he h1).elim
            · rw [Dict.get?_set_ne (show n' ≠ n from hother _ hL he), Dict.get?_set_ne (show n' ≠ n from hother _ hL he)]
              exact h.enm i' n' l' e' hL h1
        · intro i' n' l' hL
          show Dict.get? (Dict.set s.2 n e) n' = _
          rw [Dict.get?_set_ne (show n' ≠ n from hother _ hL (fun e => by cases e))]
          exact h.fld i' n' l' hL
    | index i n l t =>
      obtain ⟨j, m, k, hb⟩ := hs.ragged _ hc rfl
      have hb' : t.base = .data j m k := hb
      have hbL : Obj.data j m k ∈ L := by rw [← hb]; exact w.base hc
      have hname : t.base.name = m := by rw [hb']; rfl
      have hother : ∀ b ∈ L, b ≠ .data j m k → b.name ≠ m := fun b hb hne e => hne (w.names b hb _ hbL e)
      have henm : ∀ i' n' l' e', Obj.enum i' n' l' e' ∈ Obj.index i n l t :: P → Obj.enum i' n' l' e' ∈ P := by
        intro i' n' l' e' hm
        rcases List.mem_cons.1 hm with h1 | h1
        · cases h1
        · exact h1
      by_cases hex : ∃ c ∈ P, c.base = .data j m k
      · obtain ⟨u, h3, h4⟩ := h.dat j m k hbL hex
        have hstep := top_step w hP hc rfl hb h4
        by_cases hgt : (Obj.chain (.index i n l t)).length > ((Dict.get? s.1 t.base.name).getD []).length
        · refine next (Dict.set s.1 t.base.name (Obj.chain (.index i n l t)), s.2) ?_ (if_pos hgt)
          rw [hname] at hgt ⊢
          rw [h3] at hgt
          have hgt : (Obj.chain (.index i n l t)).length > u.chain.length := hgt
          have hnot : Obj.index i n l t ∉ u.chain := by
            intro hin
            rcases chain_length hin with e | e
            · rw [e] at hgt; omega
            · omega
          refine ⟨?_, ?_, ?_, ?_, h.fld⟩
          · intro x hk'
            rw [has_set] at hk'
            rcases hk' with rfl | hk'
            · exact ⟨_, hbL, rfl, rfl⟩
            · exact h.key x hk'
          · intro i' n' l' hL hex'
            show ∃ v : Obj, Dict.get? (Dict.set s.1 m (Obj.chain (.index i n l t))) n' = some v.chain ∧ _
            by_cases he : Obj.data i' n' l' = .data j m k
            · cases he
              exact ⟨_, Dict.get?_set_self, hstep.2 hnot⟩
            · obtain ⟨c, h1, h2⟩ := hex'
              rcases List.mem_cons.1 h1 with rfl | h1
              · exact (he (h2.symm.trans hb)).elim
              · obtain ⟨v, h5, h6⟩ := h.dat i' n' l' hL ⟨c, h1, h2⟩
                exact ⟨v, by rw [Dict.get?_set_ne (show n' ≠ m from hother _ hL he)]; exact h5, top_other h6 (fun _ e => he (e.symm.trans hb))⟩
          · intro b hb'' hbi hn
            show Dict.get? (Dict.set s.1 m _) b.name = Option.none
            rw [Dict.get?_set_ne (hother b hb'' (fun e => hn (.index i n l t) (by simp) (hb.trans e.symm)))]
            exact h.none b hb'' hbi (fun c' h1 => hn c' (List.mem_cons_of_mem _ h1))
          · intro i' n' l' e' hL hm
            obtain ⟨h1, h2⟩ := h.enm i' n' l' e' hL (henm _ _ _ _ hm)
            refine ⟨?_, h2⟩
            show Dict.get? (Dict.set s.1 m _) n' = _
            rw [Dict.get?_set_ne (show n' ≠ m from hother _ hL (fun e => by cases e))]
            exact h1
        · refine next s ?_ (if_neg hgt)
          rw [hname, h3] at hgt
          have hgt : ¬ (Obj.chain (.index i n l t)).length > u.chain.length := hgt
          have hin : Obj.index i n l t ∈ u.chain := by
            have hui : u.isIndex = true := by
              cases hui : u.isIndex with
              | true => rfl
              | false => rw [chain_nil hui] at hgt; simp [Obj.chain] at hgt
            rcases w.linear hc (hP u h4.1) rfl hui (hb.trans h4.2.1.symm) with h5 | h5
            · exact h5
            · rcases chain_length h5 with e | e
              · rw [← e]; exact mem_chain_self hui
              · exact (hgt e).elim
          refine ⟨h.key, ?_, ?_, ?_, h.fld⟩
          · intro i' n' l' hL hex'
            by_cases he : Obj.data i' n' l' = .data j m k
            · cases he
              exact ⟨u, h3, hstep.1 hin⟩
            · obtain ⟨c, h1, h2⟩ := hex'
              rcases List.mem_cons.1 h1 with rfl | h1
              · exact (he (h2.symm.trans hb)).elim
              · obtain ⟨v, h5, h6⟩ := h.dat i' n' l' hL ⟨c, h1, h2⟩
                exact ⟨v, h5, top_other h6 (fun _ e => he (e.symm.trans hb))⟩
          · intro b hb'' hbi hn
            exact h.none b hb'' hbi (fun c' h1 => hn c' (List.mem_cons_of_mem _ h1))
          · intro i' n' l' e' hL hm
            exact h.enm i' n' l' e' hL (henm _ _ _ _ hm)
      · have h3 := h.none _ hbL rfl (fun c' h1 h2 => hex ⟨c', h1, h2⟩)
        have hgt : (Obj.chain (.index i n l t)).length > ((Dict.get? s.1 t.base.name).getD []).length := by
          rw [hname, show Dict.get? s.1 m = Option.none from h3]
          simp [Obj.chain]
        refine next (Dict.set s.1 t.base.name (Obj.chain (.index i n l t)), s.2) ?_ (if_pos hgt)
        rw [hname]
        refine ⟨?_, ?_, ?_, ?_, h.fld⟩
        · intro x hk'
          rw [has_set] at hk'
          rcases hk' with rfl | hk'
          · exact ⟨_, hbL, rfl, rfl⟩
          · exact h.key x hk'
        · intro i' n' l' hL hex'
          show ∃ v : Obj, Dict.get? (Dict.set s.1 m (Obj.chain (.index i n l t))) n' = some v.chain ∧ _
          by_cases he : Obj.data i' n' l' = .data j m k
          · cases he
            refine ⟨_, Dict.get?_set_self, ?_⟩
            have := top_new (P := P) (c := .index i n l t) (fun x hx e => hex ⟨x, hx, e.trans hb⟩)
            rw [hb] at this
            exact this
          · obtain ⟨c, h1, h2⟩ := hex'
            rcases List.mem_cons.1 h1 with rfl | h1
            · exact (he (h2.symm.trans hb)).elim
            · obtain ⟨v, h5, h6⟩ := h.dat i' n' l' hL ⟨c, h1, h2⟩
              exact ⟨v, by rw [Dict.get?_set_ne (show n' ≠ m from hother _ hL he)]; exact h5, top_other h6 (fun _ e => he (e.symm.trans hb))⟩
        · intro b hb'' hbi hn
          show Dict.get? (Dict.set s.1 m _) b.name = Option.none
          rw [Dict.get?_set_ne (hother b hb'' (fun e => hn (.index i n l t) (by simp) (hb.trans e.symm)))]
          exact h.none b hb'' hbi (fun c' h1 => hn c' (List.mem_cons_of_mem _ h1))
        · intro i' n' l' e' hL hm
          obtain ⟨h1, h2⟩ := h.enm i' n' l' e' hL (henm _ _ _ _ hm)
          refine ⟨?_, h2⟩
          show Dict.get? (Dict.set s.1 m _) n' = _
          rw [Dict.get?_set_ne (show n' ≠ m from hother _ hL (fun e => by cases e))]
          exact h1

theorem get?_names : ∀ (L : List Obj), (L.map Obj.name).Nodup → ∀ c ∈ L, Dict.get? (L.map (fun c => (c.name, c))) c.name = some c
  | [], _, _, h => by cases h
  | x :: L, hn, c, h => by
    rw [List.map_cons, List.nodup_cons] at hn
    rw [List.map_cons]
    unfold Dict.get?
    rcases List.mem_cons.1 h with rfl | h
    · rw [if_pos rfl]
    · rw [if_neg (fun e => hn.1 (by rw [show x.name = c.name from e]; exact List.mem_map_of_mem h))]
      exact get?_names L hn.2 c h

/-- the columns that stand for one name -/
inductive Block (L : List Obj) : String → List Obj → Prop
  | data {i n l t} (hb : Obj.data i n l ∈ L) (ht : Top L (.data i n l) t) : Block L n (t.chain ++ [.data i n l])
  | enum {i n l e} (hb : Obj.enum i n l e ∈ L) : Block L n [.enum i n l e, e]

theorem block_unique {L : List Obj} (w : WF L) {n : String} {a b : List Obj} (ha : Block L n a) (hb : Block L n b) : a = b := by
  cases ha with
  | data h1 h2 =>
    cases hb with
    | data h3 h4 =>
      have e := w.names _ h1 _ h3 rfl
      cases e
      rw [top_unique h2 h4]
    | enum h3 => have e := w.names _ h1 _ h3 rfl; cases e
  | enum h1 =>
    cases hb with
    | data h3 h4 => have e := w.names _ h1 _ h3 rfl; cases e
    | enum h3 => have e := w.names _ h1 _ h3 rfl; cases e; rfl

theorem order_spec {L : List Obj} (w : WF L) (hn : (L.map Obj.name).Nodup) (hs : Simple L) (n : String) :
    (∀ is c, Dict.get? (orderLoop L ([], L.map (fun c => (c.name, c)))).1 n = some is →
      Dict.get? (orderLoop L ([], L.map (fun c => (c.name, c)))).2 n = some c → Block L n (is ++ [c])) ∧
    ((∃ b ∈ L, b.isIndex = false ∧ b.name = n) → ∃ is c, Dict.get? (orderLoop L ([], L.map (fun c => (c.name, c)))).1 n = some is ∧
      Dict.get? (orderLoop L ([], L.map (fun c => (c.name, c)))).2 n = some c) := by
  obtain ⟨Q, hQ, h⟩ := ord_fold w hs L [] ([], L.map (fun c => (c.name, c))) (by simp) (fun c hc => hc) (by
    refine ⟨?_, ?_, ?_, ?_, ?_⟩
    · intro k hk; simp [Dict.has] at hk
    · rintro i n l - ⟨c, hc, -⟩; cases hc
    · intro b _ _ _; rfl
    · intro i n l e _ hm; cases hm
    · intro i n l hL
      exact get?_names L hn _ hL)
  have hQ : ∀ c, c ∈ Q ↔ c ∈ L := by
    intro c
    rw [hQ c]
    simp
  have key : ∀ b ∈ L, b.isIndex = false → ∃ is c, Dict.get? (orderLoop L ([], L.map (fun c => (c.name, c)))).1 b.name = some is ∧
      Dict.get? (orderLoop L ([], L.map (fun c => (c.name, c)))).2 b.name = some c ∧ Block L b.name (is ++ [c]) := by
    intro b hb hbi
    cases b with
    | index => cases hbi
    | data i n l =>
      obtain ⟨t, h1, h2⟩ := h.dat i n l hb ⟨_, (hQ _).2 hb, rfl⟩
      exact ⟨_, _, h1, h.fld i n l hb, .data hb ((top_congr hQ _ _).1 h2)⟩
    | enum i n l e =>
      obtain ⟨h1, h2⟩ := h.enm i n l e hb ((hQ _).2 hb)
      exact ⟨_, _, h1, h2, .enum hb⟩
  constructor
  · intro is c h1 h2
    obtain ⟨b, hb, hbi, rfl⟩ := h.key n (has_of_get? h1)
    obtain ⟨is', c', h3, h4, h5⟩ := key b hb hbi
    rw [h3] at h1
    rw [h4] at h2
    cases h1
    cases h2
    exact h5
  · rintro ⟨b, hb, hbi, rfl⟩
    obtain ⟨is', c', h3, h4, -⟩ := key b hb hbi
    exact ⟨is', c', h3, h4⟩

/-- the columns in the order of the names -/
inductive Blocks (L : List Obj) : List String → List Obj → Prop
  | nil : Blocks L [] []
  | cons {n : String} {ns : List String} {a cs : List Obj} (h : Block L n a) (hs : Blocks L ns cs) : Blocks L (n :: ns) (a ++ cs)

theorem blocks_unique {L : List Obj} (w : WF L) : ∀ {ns : List String} {a b : List Obj}, Blocks L ns a → Blocks L ns b → a = b
  | [], _, _, .nil, .nil => rfl
  | _ :: _, _, _, .cons h1 h2, .cons h3 h4 => by rw [block_unique w h1 h3, blocks_unique w h2 h4]

theorem pick_blocks {L : List Obj} (w : WF L) (hn : (L.map Obj.name).Nodup) (hs : Simple L) : ∀ (ns : List String) (cs : List Obj),
    pick (orderLoop L ([], L.map (fun c => (c.name, c)))) ns = .ok cs → Blocks L ns cs
  | [], cs, h => by cases h; exact .nil
  | n :: ns, cs, h => by
    unfold pick at h
    split at h
    · rename_i is c h1 h2
      split at h
      · rename_i cs' h3
        cases h
        have := Blocks.cons ((order_spec w hn hs n).1 is c h1 h2) (pick_blocks w hn hs ns cs' h3)
        rw [List.append_assoc] at this
        exact this
      · cases h
    · cases h

theorem pick_ok {L : List Obj} (w : WF L) (hn : (L.map Obj.name).Nodup) (hs : Simple L) : ∀ (ns : List String),
    (∀ n ∈ ns, ∃ b ∈ L, b.isIndex = false ∧ b.name = n) → ∃ cs, pick (orderLoop L ([], L.map (fun c => (c.name, c)))) ns = .ok cs
  | [], _ => ⟨[], rfl⟩
  | n :: ns, h => by
    obtain ⟨is, c, h1, h2⟩ := (order_spec w hn hs n).2 (h n (by simp))
    obtain ⟨cs, h3⟩ := pick_ok w hn hs ns (fun x hx => h x (List.mem_cons_of_mem _ hx))
    exact ⟨is ++ c :: cs, by unfold pick; rw [h1, h2, h3]⟩

theorem block_congr {L L' : List Obj} (h : ∀ c, c ∈ L ↔ c ∈ L') {n : String} {a : List Obj} (hb : Block L n a) : Block L' n a := by
  cases hb with
  | data h1 h2 => exact .data ((h _).1 h1) ((top_congr h _ _).1 h2)
  | enum h1 => exact .enum ((h _).1 h1)

theorem blocks_congr {L L' : List Obj} (h : ∀ c, c ∈ L ↔ c ∈ L') : ∀ {ns : List String} {a : List Obj}, Blocks L ns a → Blocks L' ns a
  | [], _, .nil => .nil
  | _ :: _, _, .cons h1 h2 => .cons (block_congr h h1) (blocks_congr h h2)

theorem blocks_mem {L : List Obj} (w : WF L) : ∀ {ns : List String} {cs : List Obj}, Blocks L ns cs → ∀ c, c ∈ cs ↔ ∃ n ∈ ns, ∃ a, Block L n a ∧ c ∈ a
  | [], _, .nil, c => by simp
  | m :: ns, _, .cons (a := a) (cs := cs) h1 h2, c => by
    rw [List.mem_append, blocks_mem w h2 c]
    constructor
    · rintro (h | ⟨n, h3, b, h4, h5⟩)
      · exact ⟨m, by simp, a, h1, h⟩
      · exact ⟨n, List.mem_cons_of_mem _ h3, b, h4, h5⟩
    · rintro ⟨n, h3, b, h4, h5⟩
      rcases List.mem_cons.1 h3 with rfl | h3
      · rw [block_unique w h1 h4]
        exact .inl h5
      · exact .inr ⟨n, h3, b, h4, h5⟩

end Verif.TableInit
