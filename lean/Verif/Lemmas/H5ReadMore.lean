import Verif.Lemmas.H5ReadImage

/-!
# Lemmas about reading a file: builders are distinct, more depth changes nothing, and which errors there are
-/

namespace Verif.H5Read
open Verif

/-! ## Distinct builders for distinct objects -/

/-- The cached builders have been made, and no two objects have the same one. -/
structure Inj (st : St) : Prop where
  lt : ∀ o a, st.built.get? o = some a → a < st.heap.length
  inj : ∀ o p a, st.built.get? o = some a → st.built.get? p = some a → o = p

/-- What a successful reading means for this: the builder that is returned is new. -/
def RecI (rec : Rec) : Prop :=
  ∀ o nm st a st', rec o nm st = .ok (a, st') → Inj st →
    Inj st' ∧ a < st'.heap.length ∧ ∀ p, st'.built.get? p ≠ some a

theorem get?_setBuilt (st : St) (o p : Oid) (a : Addr) : (st.setBuilt o a).built.get? p =
    if p = o ∧ o ∉ Dict.keys st.built then some a else st.built.get? p := by
  by_cases ho : o ∈ Dict.keys st.built
  · simp [St.setBuilt, Dict.setDefault, Dict.has_iff.2 ho, ho]
  · simp only [St.setBuilt, Dict.setDefault, Dict.has_false_iff.2 ho, ho]
    simp [Dict.get?_set]

theorem inj_setBuilt {st : St} {o : Oid} {a : Addr} (h : Inj st) (hlt : a < st.heap.length)
    (hn : ∀ p, st.built.get? p ≠ some a) : Inj (st.setBuilt o a) := by
  constructor
  · intro p x hx
    rw [get?_setBuilt] at hx
    split at hx
    · cases hx; exact hlt
    · exact h.lt p x hx
  · intro p q x hp hq
    rw [get?_setBuilt] at hp hq
    split at hp <;> split at hq
    · rename_i h1 h2; exact h1.1.trans h2.1.symm
    · cases hp; exact absurd hq (hn q)
    · cases hq; exact absurd hp (hn p)
    · exact h.inj p q x hp hq

theorem fetch_inj {rec : Rec} (hr : RecI rec) {o : Oid} {nm : Option String} {st st' : St} {a : Addr}
    (h : fetch rec o nm st = .ok (a, st')) (hi : Inj st) : Inj st' := by
  unfold fetch at h
  split at h
  · cases h; exact hi
  · obtain ⟨⟨a1, s1⟩, h1, h2⟩ := bind_ok h
    cases h2
    obtain ⟨i, l, f⟩ := hr _ _ _ _ _ h1 hi
    exact inj_setBuilt i l f

theorem readAttrs_inj {rec : Rec} (hr : RecI rec) : ∀ (l : Dict String HVal) (acc : Dict String BAttr) (st : St)
    (r : Dict String BAttr) (st' : St), readAttrs rec l acc st = .ok (r, st') → Inj st → Inj st' := by
  intro l
  induction l with
  | nil => intro acc st r st' h hi; cases h; exact hi
  | cons q l ih =>
    obtain ⟨k, v⟩ := q
    intro acc st r st' h hi
    obtain ⟨⟨w, s1⟩, h1, h2⟩ := bind_ok h
    refine ih _ s1 r st' h2 ?_
    unfold readAttr at h1
    split at h1
    · cases h1; exact hi
    · split at h1
      · cases h1; exact hi
      · cases h1
      · obtain ⟨⟨a2, s2⟩, h3, h4⟩ := bind_ok h1
        cases h4
        exact fetch_inj hr h3 hi

theorem readMembers_inj {F : File} {rec : Rec} (hr : RecI rec) : ∀ (l : Dict String Entry) (p : Parts) (st : St)
    (p' : Parts) (st' : St), readMembers F rec l p st = .ok (p', st') → Inj st → Inj st' := by
  intro l
  induction l with
  | nil => intro p st p' st' h hi; cases h; exact hi
  | cons q l ih =>
    obtain ⟨k, e⟩ := q
    intro p st p' st' h hi
    obtain ⟨⟨p1, s1⟩, h1, h2⟩ := bind_ok h
    refine ih _ s1 p' st' h2 ?_
    unfold readMember at h1
    split at h1
    · cases h1; exact hi
    · split at h1
      · cases h1; exact hi
      · obtain ⟨⟨a2, s2⟩, h3, h4⟩ := bind_ok h1
        cases h4
        exact fetch_inj hr h3 hi
    · split at h1
      · cases h1; exact hi
      · obtain ⟨⟨a2, s2⟩, h3, h4⟩ := bind_ok h1
        simp only [Except.ok.injEq, Prod.mk.injEq] at h4
        rw [← h4.2]
        exact fetch_inj hr h3 hi

theorem readData_inj {F : File} {rec : Rec} (hr : RecI rec) {d : HData} {b : BData} {st st' : St}
    (h : readData F rec d st = .ok (b, st')) (hi : Inj st) : Inj st' := by
  unfold readData at h
  split at h
  · cases h; exact hi
  · cases h; exact hi
  · split at h
    · cases h
    · split at h
      · obtain ⟨⟨a1, s1⟩, h1, h2⟩ := bind_ok h
        cases h2
        obtain ⟨i, l, f⟩ := hr _ _ _ _ _ h1 hi
        exact inj_setBuilt i l f
      · cases h

theorem inj_alloc {st : St} (b : BNode) (h : Inj st) : Inj (st.alloc b).2 ∧ (st.alloc b).1 < (st.alloc b).2.heap.length ∧
    ∀ p, (st.alloc b).2.built.get? p ≠ some (st.alloc b).1 := by
  refine ⟨⟨?_, h.inj⟩, by simp [St.alloc], ?_⟩
  · intro o a ha
    have := h.lt o a ha
    simp only [St.alloc, List.length_append, List.length_cons, List.length_nil]
    exact Nat.lt_add_right _ this
  · intro p hp
    have := h.lt p _ hp
    simp [St.alloc] at this

theorem readObj_recI (F : File) : ∀ n, RecI (readObj F n) := by
  intro n
  induction n with
  | zero => intro o nm st a st' h; simp [readObj] at h
  | succ n ih =>
    intro o nm st a st' h hi
    unfold readObj at h
    split at h
    · cases h
    · obtain ⟨⟨attrs, s1⟩, h1, h2⟩ := bind_ok h
      have i1 := readAttrs_inj ih _ _ _ _ _ h1 hi
      simp only at h2
      split at h2
      · obtain ⟨⟨d, s2⟩, h3, h4⟩ := bind_ok h2
        have i2 := readData_inj ih h3 i1
        simp only [Except.ok.injEq] at h4
        have h5 := inj_alloc (BNode.dset (nm.getD (by assumption : Node).name) attrs d) i2
        rw [h4] at h5
        exact h5
      · obtain ⟨⟨p, s2⟩, h3, h4⟩ := bind_ok h2
        have i2 := readMembers_inj ih _ _ _ _ _ h3 i1
        obtain ⟨b, _, h6⟩ := bind_ok h4
        simp only [Except.ok.injEq] at h6
        have h5 := inj_alloc b i2
        rw [h6] at h5
        exact h5

/-! ## More depth changes nothing -/

/-- what one reader can read, the other reads in the same way -/
def RecLe (rec rec' : Rec) : Prop := ∀ o nm st r, rec o nm st = .ok r → rec' o nm st = .ok r

theorem bind_le {α β : Type} {x x' : Except Err α} {f f' : α → Except Err β} {b : β}
    (hx : ∀ a, x = .ok a → x' = .ok a) (hf : ∀ a, f a = .ok b → f' a = .ok b) (h : (x >>= f) = .ok b) :
    (x' >>= f') = .ok b := by
  obtain ⟨a, h1, h2⟩ := bind_ok h
  rw [hx a h1]
  exact hf a h2

theorem fetch_le {rec rec' : Rec} (hr : RecLe rec rec') {o : Oid} {nm : Option String} {st : St} {r : Addr × St}
    (h : fetch rec o nm st = .ok r) : fetch rec' o nm st = .ok r := by
  unfold fetch at h ⊢
  split
  · rename_i hg; simpa [hg] using h
  · rename_i hg
    simp only [hg] at h
    exact bind_le (hr o nm st) (fun _ h => h) h

theorem readAttrs_le {rec rec' : Rec} (hr : RecLe rec rec') : ∀ (l : Dict String HVal) (acc : Dict String BAttr)
    (st : St) (r : Dict String BAttr × St), readAttrs rec l acc st = .ok r → readAttrs rec' l acc st = .ok r := by
  intro l
  induction l with
  | nil => intro acc st r h; exact h
  | cons q l ih =>
    obtain ⟨k, v⟩ := q
    intro acc st r h
    refine bind_le ?_ (fun a h => ih _ _ _ h) h
    intro a h1
    unfold readAttr at h1 ⊢
    split
    · rename_i hk; simpa [hk] using h1
    · rename_i hk
      simp only [hk, if_false] at h1
      cases v with
      | data d => exact h1
      | region d => exact h1
      | ref o => exact bind_le (fun _ h => fetch_le hr h) (fun _ h => h) h1

theorem readMembers_le {F : File} {rec rec' : Rec} (hr : RecLe rec rec') : ∀ (l : Dict String Entry) (p : Parts)
    (st : St) (r : Parts × St), readMembers F rec l p st = .ok r → readMembers F rec' l p st = .ok r := by
  intro l
  induction l with
  | nil => intro p st r h; exact h
  | cons q l ih =>
    obtain ⟨k, e⟩ := q
    intro p st r h
    refine bind_le ?_ (fun a h => ih _ _ _ h) h
    intro a h1
    unfold readMember at h1 ⊢
    cases e with
    | link b t =>
      cases t with
      | none => exact h1
      | some o =>
        simp only at h1 ⊢
        split
        · rename_i hi; simpa [hi] using h1
        · rename_i hi
          simp only [hi] at h1
          exact bind_le (fun _ h => fetch_le hr h) (fun _ h => h) h1
    | hard o =>
      simp only at h1 ⊢
      split
      · rename_i hi; simpa [hi] using h1
      · rename_i hi
        simp only [hi] at h1
        exact bind_le (fun _ h => fetch_le hr h) (fun _ h => h) h1

theorem readData_le {F : File} {rec rec' : Rec} (hr : RecLe rec rec') {d : HData} {st : St} {r : BData × St}
    (h : readData F rec d st = .ok r) : readData F rec' d st = .ok r := by
  unfold readData at h ⊢
  cases d with
  | data s => exact h
  | refs l => exact h
  | sref p =>
    simp only at h ⊢
    split
    · rename_i hg; simp [hg] at h
    · rename_i nd hg
      simp only [hg] at h
      split
      · rename_i hd
        simp only [hd] at h
        exact bind_le (fun _ h => hr _ _ _ _ h) (fun _ h => h) h
      · rename_i hd
        simp [hd] at h

theorem readObj_le (F : File) : ∀ n, RecLe (readObj F n) (readObj F (n + 1)) := by
  intro n
  induction n with
  | zero => intro o nm st r h; simp [readObj] at h
  | succ n ih =>
    intro o nm st r h
    unfold readObj at h ⊢
    split
    · rename_i hg; simp [hg] at h
    · rename_i nd hg
      simp only [hg] at h
      refine bind_le (fun a h => readAttrs_le ih _ _ _ _ h) ?_ h
      intro a h1
      simp only at h1 ⊢
      split
      · rename_i hd
        simp only [hd] at h1
        exact bind_le (fun _ h => readData_le ih h) (fun _ h => h) h1
      · rename_i hd
        simp only [hd] at h1
        exact bind_le (fun _ h => readMembers_le ih _ _ _ _ h) (fun _ h => h) h1

theorem readObj_le_of_le (F : File) {n m : Nat} (h : n ≤ m) : RecLe (readObj F n) (readObj F m) := by
  induction h with
  | refl => exact fun _ _ _ _ h => h
  | step _ ih => exact fun o nm st r h => readObj_le F _ o nm st r (ih o nm st r h)

/-! ## What the parts are -/

theorem get?_pureAttrs {bt : Dict Oid Addr} {k : String} : ∀ (l : Dict String HVal) (acc : Dict String BAttr),
    (Dict.keys l).Nodup → (pureAttrs bt l acc).get? k =
      match Dict.get? l k with
      | none => acc.get? k
      | some v => (pureAttr bt k v).orElse (fun _ => acc.get? k) := by
  intro l
  induction l with
  | nil => intro acc _; rfl
  | cons q l ih =>
    obtain ⟨k', v⟩ := q
    intro acc hnd
    simp only [Dict.keys, List.map_cons, List.nodup_cons] at hnd
    have h1 : pureAttrs bt ((k', v) :: l) acc = pureAttrs bt l (putAttr acc k' (pureAttr bt k' v)) := rfl
    rw [h1, ih _ hnd.2]
    by_cases hk : k' = k
    · subst hk
      have hn : Dict.get? l k' = none := Dict.get?_eq_none_iff.2 hnd.1
      simp only [hn, Dict.get?, if_true]
      cases hp : pureAttr bt k' v with
      | none => simp [putAttr]
      | some w => simp [putAttr]
    · have hp : (putAttr acc k' (pureAttr bt k' v)).get? k = acc.get? k := by
        cases pureAttr bt k' v with
        | none => rfl
        | some w => simp [putAttr, Dict.get?_set_ne (Ne.symm hk)]
      rw [hp]
      simp [Dict.get?, hk]

theorem keys_pureAttrs {bt : Dict Oid Addr} {k : String} : ∀ (l : Dict String HVal) (acc : Dict String BAttr),
    k ∈ Dict.keys (pureAttrs bt l acc) → k ∈ Dict.keys l ∨ k ∈ Dict.keys acc := by
  intro l
  induction l with
  | nil => intro acc h; exact Or.inr h
  | cons q l ih =>
    intro acc h
    rcases ih _ h with h | h
    · exact Or.inl (List.mem_cons_of_mem _ h)
    · simp only at h
      cases hp : pureAttr bt q.1 q.2 with
      | none => rw [hp] at h; exact Or.inr h
      | some w =>
        rw [hp] at h
        rcases Dict.mem_keys_set.1 h with h | h
        · exact Or.inl (by rw [h]; exact List.mem_cons_self ..)
        · exact Or.inr h

/-- is the object a dataset? -/
def isD (F : File) (o : Oid) : Bool := ((F.objs o).map Node.isData).getD false

/-- what the member `k` adds to the groups -/
def groupPart (F : File) (bt : Dict Oid Addr) : Option Entry → Option Addr
  | some (.hard o) => if F.ignore o then none else if isD F o then none else some (addr bt o)
  | _ => none

/-- what the member `k` adds to the datasets -/
def dsetPart (F : File) (bt : Dict Oid Addr) : Option Entry → Option (Option Addr)
  | some (.hard o) => if F.ignore o then none else if isD F o then some (some (addr bt o)) else none
  | some (.link _ none) => some none
  | _ => none

theorem groups_member {F : File} {bt : Dict Oid Addr} {p : Parts} {k k' : String} {e : Entry} :
    (pureMember F bt p (k', e)).groups.get? k =
      if k = k' then (groupPart F bt (some e)).or (p.groups.get? k) else p.groups.get? k := by
  unfold pureMember groupPart
  cases e with
  | link b t =>
    cases t with
    | none => simp
    | some o => simp only; split <;> simp
  | hard o =>
    simp only [isD]
    by_cases hk : k = k'
    · subst hk; split
      · simp
      · split
        · rename_i hx; simp [hx]
        · rename_i hx; simp [hx]
    · split
      · simp
      · split <;> simp [hk, Dict.get?_set]

theorem dsets_member {F : File} {bt : Dict Oid Addr} {p : Parts} {k k' : String} {e : Entry} :
    (pureMember F bt p (k', e)).dsets.get? k =
      if k = k' then (dsetPart F bt (some e)).or (p.dsets.get? k) else p.dsets.get? k := by
  unfold pureMember dsetPart
  cases e with
  | link b t =>
    cases t with
    | none => by_cases hk : k = k' <;> simp [hk, Dict.get?_set]
    | some o => simp only; split <;> simp
  | hard o =>
    simp only [isD]
    by_cases hk : k = k'
    · subst hk; split
      · simp
      · split
        · rename_i hx; simp [hx]
        · rename_i hx; simp [hx]
    · split
      · simp
      · split <;> simp [hk, Dict.get?_set]

theorem get?_groups {F : File} {bt : Dict Oid Addr} {k : String} : ∀ (l : Dict String Entry) (p : Parts),
    (Dict.keys l).Nodup →
    (pureParts F bt l p).groups.get? k = (groupPart F bt (Dict.get? l k)).or (p.groups.get? k) := by
  intro l
  induction l with
  | nil => intro p _; rfl
  | cons q l ih =>
    obtain ⟨k', e⟩ := q
    intro p hnd
    simp only [Dict.keys, List.map_cons, List.nodup_cons] at hnd
    have h1 : pureParts F bt ((k', e) :: l) p = pureParts F bt l (pureMember F bt p (k', e)) := rfl
    rw [h1, ih _ hnd.2, groups_member]
    by_cases hk : k = k'
    · subst hk
      have hn : Dict.get? l k = none := Dict.get?_eq_none_iff.2 hnd.1
      simp [hn, Dict.get?, groupPart]
    · simp [Dict.get?, hk, Ne.symm hk]

theorem get?_dsets {F : File} {bt : Dict Oid Addr} {k : String} : ∀ (l : Dict String Entry) (p : Parts),
    (Dict.keys l).Nodup →
    (pureParts F bt l p).dsets.get? k = (dsetPart F bt (Dict.get? l k)).or (p.dsets.get? k) := by
  intro l
  induction l with
  | nil => intro p _; rfl
  | cons q l ih =>
    obtain ⟨k', e⟩ := q
    intro p hnd
    simp only [Dict.keys, List.map_cons, List.nodup_cons] at hnd
    have h1 : pureParts F bt ((k', e) :: l) p = pureParts F bt l (pureMember F bt p (k', e)) := rfl
    rw [h1, ih _ hnd.2, dsets_member]
    by_cases hk : k = k'
    · subst hk
      have hn : Dict.get? l k = none := Dict.get?_eq_none_iff.2 hnd.1
      simp [hn, Dict.get?, dsetPart]
    · simp [Dict.get?, hk, Ne.symm hk]

theorem dsets_nodup {F : File} {bt : Dict Oid Addr} : ∀ (l : Dict String Entry) (p : Parts),
    (Dict.keys p.dsets).Nodup → (Dict.keys (pureParts F bt l p).dsets).Nodup := by
  intro l
  induction l with
  | nil => intro p h; exact h
  | cons q l ih =>
    intro p h
    refine ih _ ?_
    unfold pureMember
    split
    · exact Dict.set_nodup h
    · split <;> exact h
    · split
      · exact h
      · split
        · exact Dict.set_nodup h
        · exact h

theorem get?_someDsets {d : Dict String (Option Addr)} {k : String} (h : (Dict.keys d).Nodup) :
    (someDsets d).get? k = (d.get? k).join := by
  induction d with
  | nil => rfl
  | cons q d ih =>
    obtain ⟨k', v⟩ := q
    simp only [Dict.keys, List.map_cons, List.nodup_cons] at h
    have ih := ih h.2
    cases v with
    | none =>
      by_cases hk : k' = k
      · subst hk
        have hn : Dict.get? d k' = none := Dict.get?_eq_none_iff.2 h.1
        rw [hn] at ih
        simpa [someDsets, Dict.get?] using ih
      · simpa [someDsets, Dict.get?, hk] using ih
    | some a =>
      by_cases hk : k' = k
      · subst hk
        simp [someDsets, Dict.get?]
      · simpa [someDsets, Dict.get?, hk] using ih

/-- where a kept link comes from -/
theorem links_from {F : File} {bt : Dict Oid Addr} {b k : String} {a : Addr} : ∀ (l : Dict String Entry) (p : Parts),
    (b, (k, a)) ∈ (pureParts F bt l p).links →
    (∃ o, (k, Entry.link b (some o)) ∈ l ∧ F.ignore o = false ∧ a = addr bt o) ∨ (b, (k, a)) ∈ p.links := by
  intro l
  induction l with
  | nil => intro p h; exact Or.inr h
  | cons q l ih =>
    obtain ⟨k', e⟩ := q
    intro p h
    rcases ih _ h with ⟨o, h1, h2⟩ | h
    · exact Or.inl ⟨o, List.mem_cons_of_mem _ h1, h2⟩
    · unfold pureMember at h
      cases e with
      | link b' t =>
        cases t with
        | none => exact Or.inr h
        | some o =>
          simp only at h
          split at h
          · exact Or.inr h
          · rename_i hig
            rcases Dict.set_mem h with h | h
            · simp only [Prod.mk.injEq] at h
              obtain ⟨rfl, rfl, rfl⟩ := h
              exact Or.inl ⟨o, List.mem_cons_self .., by simpa using hig, rfl⟩
            · exact Or.inr h
      | hard o =>
        simp only at h
        split at h
        · exact Or.inr h
        · split at h <;> exact Or.inr h

/-- no two links of a group lead to paths with the same last part -/
def LinkNames (F : File) (l : Dict String Entry) : Prop :=
  ∀ k k' b o o', (k, Entry.link b (some o)) ∈ l → (k', Entry.link b (some o')) ∈ l → F.ignore o = false →
    F.ignore o' = false → k = k'

theorem links_keep {F : File} {bt : Dict Oid Addr} {b k : String} {o : Oid} : ∀ (l : Dict String Entry) (p : Parts),
    (∀ k' o', (k', Entry.link b (some o')) ∈ l → F.ignore o' = false → k' = k ∧ o' = o) →
    ((k, Entry.link b (some o)) ∈ l ∧ F.ignore o = false ∨ p.links.get? b = some (k, addr bt o)) →
    (pureParts F bt l p).links.get? b = some (k, addr bt o) := by
  intro l
  induction l with
  | nil => intro p _ h; exact h.elim (fun h => by cases h.1) id
  | cons q l ih =>
    obtain ⟨k', e⟩ := q
    intro p hu h
    refine ih _ (fun k' o' hm => hu k' o' (List.mem_cons_of_mem _ hm)) ?_
    by_cases hq : (k', e) = (k, Entry.link b (some o)) ∧ F.ignore o = false
    · right
      obtain ⟨hq, hig⟩ := hq
      simp only [Prod.mk.injEq] at hq
      obtain ⟨rfl, rfl⟩ := hq
      simp [pureMember, hig]
    · rcases h with ⟨h, hig⟩ | h
      · rcases List.mem_cons.1 h with h | h
        · exact absurd ⟨h.symm, hig⟩ hq
        · exact Or.inl ⟨h, hig⟩
      · right
        unfold pureMember
        cases e with
        | link b' t =>
          cases t with
          | none => exact h
          | some o' =>
            simp only
            split
            · exact h
            · rename_i hig
              by_cases hb : b = b'
              · subst hb
                obtain ⟨rfl, rfl⟩ := hu k' o' (List.mem_cons_self ..) (by simpa using hig)
                simp
              · simp only [Dict.get?_set_ne hb]; exact h
        | hard o' =>
          simp only
          split
          · exact h
          · split <;> exact h

theorem linkFold_from {k : String} {x : Addr} : ∀ (d : Dict String (String × Addr)) (e : Dict String Addr),
    Dict.get? (d.foldl (fun e q => e.set q.2.1 q.2.2) e) k = some x → (∃ b, (b, (k, x)) ∈ d) ∨ e.get? k = some x := by
  intro d
  induction d with
  | nil => intro e h; exact Or.inr h
  | cons q d ih =>
    obtain ⟨b, k', y⟩ := q
    intro e h
    rcases ih _ h with ⟨b', h⟩ | h
    · exact Or.inl ⟨b', List.mem_cons_of_mem _ h⟩
    · simp only [Dict.get?_set] at h
      split at h
      · rename_i hk
        cases h
        exact Or.inl ⟨b, by rw [hk]; exact List.mem_cons_self ..⟩
      · exact Or.inr h

theorem linkFold_keep {k : String} {x : Addr} : ∀ (d : Dict String (String × Addr)) (e : Dict String Addr),
    (∀ b y, (b, (k, y)) ∈ d → y = x) → ((∃ b, (b, (k, x)) ∈ d) ∨ e.get? k = some x) →
    Dict.get? (d.foldl (fun e q => e.set q.2.1 q.2.2) e) k = some x := by
  intro d
  induction d with
  | nil => intro e _ h; exact h.elim (fun ⟨_, h⟩ => by cases h) id
  | cons q d ih =>
    obtain ⟨b, k', y⟩ := q
    intro e hu h
    refine ih _ (fun b y hm => hu b y (List.mem_cons_of_mem _ hm)) ?_
    simp only [Dict.get?_set]
    by_cases hk : k = k'
    · subst hk
      right
      simp [hu b y (List.mem_cons_self ..)]
    · rcases h with ⟨b', h⟩ | h
      · rcases List.mem_cons.1 h with h | h
        · simp only [Prod.mk.injEq] at h
          exact absurd h.2.1 hk
        · exact Or.inl ⟨b', h⟩
      · right; simpa [hk] using h

/-- the links of a group builder -/
theorem get?_links {F : File} {bt : Dict Oid Addr} {l : Dict String Entry} (hn : (Dict.keys l).Nodup)
    (hl : LinkNames F l) {k : String} {x : Addr} :
    (linkDict (pureParts F bt l {}).links).get? k = some x ↔
      ∃ b o, (k, Entry.link b (some o)) ∈ l ∧ F.ignore o = false ∧ x = addr bt o := by
  have uniq : ∀ {k e e'}, (k, e) ∈ l → (k, e') ∈ l → e = e' := by
    intro k e e' h h'
    have h1 := Dict.get?_of_mem hn h
    rw [Dict.get?_of_mem hn h'] at h1
    cases h1; rfl
  constructor
  · intro h
    rcases linkFold_from _ _ h with ⟨b, h⟩ | h
    · rcases links_from _ _ h with ⟨o, h⟩ | h
      · exact ⟨b, o, h⟩
      · cases h
    · simp at h
  · rintro ⟨b, o, hm, hig, rfl⟩
    refine linkFold_keep _ _ ?_ (Or.inl ⟨b, Dict.mem_of_get? (links_keep l {} ?_ (Or.inl ⟨hm, hig⟩))⟩)
    · intro b' y hy
      rcases links_from _ _ hy with ⟨o', h1, _, rfl⟩ | h
      · have := uniq hm h1
        simp only [Entry.link.injEq, Option.some.injEq] at this
        rw [this.2]
      · cases h
    · intro k' o' hm' hig'
      have hk := hl k' k b o' o hm' hm hig' hig
      subst hk
      have := uniq hm hm'
      simp only [Entry.link.injEq, Option.some.injEq] at this
      exact ⟨rfl, this.2.symm⟩

/-! ## Which errors there are -/

/-- A file without the things that reading cannot cope with. -/
structure Clean (F : File) : Prop where
  present : ∀ o p, Needs F o p → F.objs p ≠ none
  region : ∀ o nd k p, F.objs o = some nd → (k, HVal.region p) ∈ nd.attrs → k = ".specloc"
  sref : ∀ o nd p np, F.objs o = some nd → nd.isData = true → nd.data = .sref p → F.objs p = some np →
    np.isData = true
  nodup : ∀ o nd, F.objs o = some nd → (Dict.keys nd.members).Nodup
  clash : ∀ o nd k, F.objs o = some nd → nd.isData = false → k ∈ Dict.keys nd.attrs → k ∉ Dict.keys nd.members

theorem disjointB_iff {a b : List String} : disjointB a b = true ↔ ∀ x ∈ a, x ∉ b := by
  simp [disjointB]

theorem mem_keys_iff {α : Type} {d : Dict String α} {k : String} : k ∈ Dict.keys d ↔ ∃ v, d.get? k = some v := by
  cases h : d.get? k with
  | none => simpa using Dict.get?_eq_none_iff.1 h
  | some v => simpa using Dict.mem_keys_of_mem (Dict.mem_of_get? h)

theorem mkGroup_clean {F : File} (hC : Clean F) {o : Oid} {nd : Node} (hnd : F.objs o = some nd)
    (hd : nd.isData = false) (bt bt' : Dict Oid Addr) (nm : String) :
    ∃ b, mkGroup nm (pureAttrs bt nd.attrs []) (pureParts F bt' nd.members {}) = .ok b := by
  have hn := hC.nodup o nd hnd
  have hg : ∀ k ∈ Dict.keys (pureParts F bt' nd.members {}).groups, ∃ p, (k, Entry.hard p) ∈ nd.members ∧ isD F p = false := by
    intro k hk
    obtain ⟨v, hv⟩ := mem_keys_iff.1 hk
    rw [get?_groups _ _ hn] at hv
    simp only [Dict.get?_nil, Option.or_none] at hv
    unfold groupPart at hv
    split at hv
    · rename_i p hp
      split at hv
      · cases hv
      · split at hv
        · cases hv
        · rename_i h1; exact ⟨p, Dict.mem_of_get? hp, by simpa using h1⟩
    · cases hv
  have hds : ∀ k ∈ Dict.keys (someDsets (pureParts F bt' nd.members {}).dsets),
      ∃ p, (k, Entry.hard p) ∈ nd.members ∧ isD F p = true := by
    intro k hk
    obtain ⟨v, hv⟩ := mem_keys_iff.1 hk
    rw [get?_someDsets (dsets_nodup nd.members {} (by simp [Dict.keys])), get?_dsets _ _ hn] at hv
    simp only [Dict.get?_nil, Option.or_none] at hv
    unfold dsetPart at hv
    split at hv
    · rename_i p hp
      split at hv
      · cases hv
      · split at hv
        · rename_i h1; exact ⟨p, Dict.mem_of_get? hp, h1⟩
        · cases hv
    · cases hv
    · cases hv
  have hls : ∀ k ∈ Dict.keys (linkDict (pureParts F bt' nd.members {}).links),
      ∃ b p, (k, Entry.link b (some p)) ∈ nd.members := by
    intro k hk
    obtain ⟨v, hv⟩ := mem_keys_iff.1 hk
    rcases linkFold_from _ _ hv with ⟨b, h⟩ | h
    · rcases links_from _ _ h with ⟨p, h, _⟩ | h
      · exact ⟨b, p, h⟩
      · cases h
    · simp at h
  have ha : ∀ k ∈ Dict.keys (pureAttrs bt nd.attrs []), k ∉ Dict.keys nd.members := by
    intro k hk
    rcases keys_pureAttrs _ _ hk with h | h
    · exact hC.clash o nd k hnd hd h
    · simp [Dict.keys] at h
  have uniq : ∀ {k e e'}, (k, e) ∈ nd.members → (k, e') ∈ nd.members → e = e' := by
    intro k e e' h h'
    have h1 := Dict.get?_of_mem hn h
    rw [Dict.get?_of_mem hn h'] at h1
    cases h1; rfl
  have h1 : disjointB (pureParts F bt' nd.members {}).groups.keys (pureAttrs bt nd.attrs []).keys = true := by
    rw [disjointB_iff]
    intro k hk hk'
    obtain ⟨p, hp, _⟩ := hg k hk
    exact ha k hk' (Dict.mem_keys_of_mem hp)
  have h2 : disjointB (someDsets (pureParts F bt' nd.members {}).dsets).keys
      ((pureAttrs bt nd.attrs []).keys ++ (pureParts F bt' nd.members {}).groups.keys) = true := by
    rw [disjointB_iff]
    intro k hk hk'
    obtain ⟨p, hp, hpd⟩ := hds k hk
    rcases List.mem_append.1 hk' with h | h
    · exact ha k h (Dict.mem_keys_of_mem hp)
    · obtain ⟨q, hq, hqd⟩ := hg k h
      cases uniq hp hq
      rw [hpd] at hqd; cases hqd
  have h3 : disjointB (linkDict (pureParts F bt' nd.members {}).links).keys
      ((pureAttrs bt nd.attrs []).keys ++ (pureParts F bt' nd.members {}).groups.keys ++
        (someDsets (pureParts F bt' nd.members {}).dsets).keys) = true := by
    rw [disjointB_iff]
    intro k hk hk'
    obtain ⟨b, p, hp⟩ := hls k hk
    rcases List.mem_append.1 hk' with h | h
    · rcases List.mem_append.1 h with h | h
      · exact ha k h (Dict.mem_keys_of_mem hp)
      · obtain ⟨q, hq, _⟩ := hg k h
        cases uniq hp hq
    · obtain ⟨q, hq, _⟩ := hds k h
      cases uniq hp hq
  exact ⟨_, by simp only [mkGroup, h1, h2, h3, Bool.and_self, if_true]; rfl⟩

/-- The only error that reading with depth `n` may raise is the recursion error. -/
def OnlyDeep (F : File) (n : Nat) : Prop :=
  ∀ o nm st e, readObj F n o nm st = .error e → F.objs o ≠ none → Closed F st → InvH F st → e = .recursion

theorem bind_err {α β : Type} {x : Except Err α} {f : α → Except Err β} {e : Err} (h : (x >>= f) = .error e) :
    x = .error e ∨ ∃ a, x = .ok a ∧ f a = .error e := by
  cases x with
  | error e' =>
    have : Except.error e' = (Except.error e : Except Err β) := h
    cases this
    exact Or.inl rfl
  | ok a => exact Or.inr ⟨a, rfl, h⟩

theorem fetch_only {F : File} {n : Nat} (hr : OnlyDeep F n) {o : Oid} {nm : Option String} {st : St} {e : Err}
    (h : fetch (readObj F n) o nm st = .error e) (ho : F.objs o ≠ none) (hc : Closed F st) (hi : InvH F st) :
    e = .recursion := by
  unfold fetch at h
  split at h
  · cases h
  · rcases bind_err h with h | ⟨a, _, h⟩
    · exact hr _ _ _ _ h ho hc hi
    · cases h

theorem readAttrs_only {F : File} {n : Nat} (hF : Canon F) (hC : Clean F) (hr : OnlyDeep F n) {o : Oid} {nd : Node}
    (hnd : F.objs o = some nd) : ∀ (l : Dict String HVal) (acc : Dict String BAttr) (st : St) (e : Err),
    (∀ x ∈ l, x ∈ nd.attrs) → readAttrs (readObj F n) l acc st = .error e → Closed F st → InvH F st →
    e = .recursion := by
  intro l
  induction l with
  | nil => intro acc st e _ h; cases h
  | cons q l ih =>
    obtain ⟨k, v⟩ := q
    intro acc st e hsub h hc hi
    have hm : (k, v) ∈ nd.attrs := hsub _ (List.mem_cons_self ..)
    rcases bind_err h with h1 | ⟨⟨w, s1⟩, h1, h2⟩
    · unfold readAttr at h1
      split at h1
      · cases h1
      · rename_i hk
        cases v with
        | data d => cases h1
        | region p => exact absurd (hC.region o nd k p hnd hm) hk
        | ref p =>
          simp only at h1
          rcases bind_err h1 with h1 | ⟨a, _, h1⟩
          · exact fetch_only hr h1 (hC.present o p (needs_attr hnd k p hm hk)) hc hi
          · cases h1
    · have hs : readAttrs (readObj F n) [(k, v)] acc st = .ok (putAttr acc k w, s1) := by
        simp only [readAttrs, h1]; rfl
      have hne : ∀ k' p, (k', HVal.ref p) ∈ [(k, v)] → k' ≠ ".specloc" → Needs F o p := by
        intro k' p hmm hk
        rw [List.mem_singleton] at hmm
        rw [← hmm] at hm
        exact needs_attr hnd k' p hm hk
      obtain ⟨c1, _⟩ := readAttrs_ok (readObj_recOK F n) o _ _ _ _ _ hne hs hc
      obtain ⟨_, i1, _⟩ := readAttrs_img (readObj_recH hF n) o _ _ _ _ _ hne hs hc hi
      exact ih _ s1 e (fun x hx => hsub x (List.mem_cons_of_mem _ hx)) h2 c1 i1

theorem readMembers_only {F : File} {n : Nat} (hF : Canon F) (hC : Clean F) (hr : OnlyDeep F n) {o : Oid} {nd : Node}
    (hnd : F.objs o = some nd) (hd : nd.isData = false) : ∀ (l : Dict String Entry) (p : Parts) (st : St) (e : Err),
    (∀ x ∈ l, x ∈ nd.members) → readMembers F (readObj F n) l p st = .error e → Closed F st → InvH F st →
    e = .recursion := by
  intro l
  induction l with
  | nil => intro p st e _ h; cases h
  | cons q l ih =>
    obtain ⟨k, en⟩ := q
    intro p st e hsub h hc hi
    have hm : (k, en) ∈ nd.members := hsub _ (List.mem_cons_self ..)
    have hpres : ∀ q, en.goal = some q → F.ignore q = false → F.objs q ≠ none :=
      fun q hg hig => hC.present o q (needs_member hnd hd k en q hm hg hig)
    rcases bind_err h with h1 | ⟨⟨p1, s1⟩, h1, h2⟩
    · unfold readMember at h1
      cases en with
      | link b t =>
        cases t with
        | none => cases h1
        | some q0 =>
          simp only at h1
          split at h1
          · cases h1
          · rename_i hig
            rcases bind_err h1 with h1 | ⟨a, _, h1⟩
            · exact fetch_only hr h1 (hpres q0 rfl (by simpa using hig)) hc hi
            · cases h1
      | hard q0 =>
        simp only at h1
        split at h1
        · cases h1
        · rename_i hig
          rcases bind_err h1 with h1 | ⟨a, _, h1⟩
          · exact fetch_only hr h1 (hpres q0 rfl (by simpa using hig)) hc hi
          · cases h1
    · have hs : readMembers F (readObj F n) [(k, en)] p st = .ok (p1, s1) := by
        simp only [readMembers, h1]; rfl
      obtain ⟨c1, _⟩ := readMember_ok (readObj_recOK F n) o
        (fun q hg hig => needs_member hnd hd k en q hm hg hig) h1 hc
      obtain ⟨_, i1, _⟩ := readMembers_img (readObj_recH hF n) hF hnd hd _ _ _ _ _
        (fun x hx => by rw [List.mem_singleton] at hx; rw [hx]; exact hm) hs hc hi
      exact ih _ s1 e (fun x hx => hsub x (List.mem_cons_of_mem _ hx)) h2 c1 i1

theorem readObj_only {F : File} (hF : Canon F) (hC : Clean F) : ∀ n, OnlyDeep F n := by
  intro n
  induction n with
  | zero => intro o nm st e h; simp only [readObj] at h; cases h; intros; rfl
  | succ n ih =>
    intro o nm st e h ho hc hi
    unfold readObj at h
    split at h
    · rename_i hg; exact absurd hg ho
    · rename_i nd hnd
      rcases bind_err h with h1 | ⟨⟨attrs, s1⟩, h1, h2⟩
      · exact readAttrs_only hF hC ih hnd _ _ _ _ (fun _ h => h) h1 hc hi
      · obtain ⟨c1, g1, m1⟩ := readAttrs_ok (readObj_recOK F n) o nd.attrs [] st attrs s1 (needs_attr hnd) h1 hc
        obtain ⟨l1, i1, ha⟩ := readAttrs_img (readObj_recH hF n) o nd.attrs [] st attrs s1 (needs_attr hnd) h1 hc hi
        simp only at h2
        split at h2
        · rename_i hd
          rcases bind_err h2 with h3 | ⟨⟨d, s2⟩, _, h4⟩
          · unfold readData at h3
            split at h3
            · cases h3
            · cases h3
            · rename_i p hp
              split at h3
              · rename_i hg
                exact absurd hg (hC.present o p ⟨nd, hnd, Or.inr (Or.inl ⟨hd, hp⟩)⟩)
              · rename_i np hnp
                split at h3
                · rcases bind_err h3 with h3 | ⟨a, _, h3⟩
                  · exact ih _ _ _ _ h3 (by rw [hnp]; simp) c1 i1
                  · cases h3
                · rename_i hnd'
                  exact absurd (hC.sref o nd p np hnd hd hp hnp) hnd'
          · cases h4
        · rename_i hd
          have hd : nd.isData = false := by simpa using hd
          rcases bind_err h2 with h3 | ⟨⟨p, s2⟩, h3, h4⟩
          · exact readMembers_only hF hC ih hnd hd _ _ _ _ (fun _ h => h) h3 c1 i1
          · obtain ⟨_, _, hp⟩ := readMembers_img (readObj_recH hF n) hF hnd hd nd.members {} s1 p s2 (fun _ h => h) h3 c1 i1
            rcases bind_err h4 with h5 | ⟨b, _, h5⟩
            · obtain ⟨b, hb⟩ := mkGroup_clean hC hnd hd s1.built s2.built (nm.getD nd.name)
              simp only [ha, hp, hb] at h5
              cases h5
            · cases h5

end Verif.H5Read
