import Verif.Lemmas.H5Read

/-!
# Lemmas about reading a file: what the builders hold
-/

namespace Verif.H5Read
open Verif

/-- the builder of an object -/
def addr (bt : Dict Oid Addr) (o : Oid) : Addr := (bt.get? o).getD 0

/-- what is kept of an attribute -/
def pureAttr (bt : Dict Oid Addr) (k : String) (v : HVal) : Option BAttr :=
  if k = ".specloc" then none
  else match v with
  | .data d => some (.data d)
  | .region _ => none
  | .ref o => some (.bldr (addr bt o))

/-- what is kept of the attributes -/
def pureAttrs (bt : Dict Oid Addr) (l : Dict String HVal) (acc : Dict String BAttr) : Dict String BAttr :=
  l.foldl (fun d q => putAttr d q.1 (pureAttr bt q.1 q.2)) acc

/-- what is kept of a member -/
def pureMember (F : File) (bt : Dict Oid Addr) (p : Parts) (q : String × Entry) : Parts :=
  match q.2 with
  | .link _ none => { p with dsets := p.dsets.set q.1 none }
  | .link base (some o) => if F.ignore o then p else { p with links := p.links.set base (q.1, addr bt o) }
  | .hard o =>
    if F.ignore o then p
    else if ((F.objs o).map Node.isData).getD false then { p with dsets := p.dsets.set q.1 (some (addr bt o)) }
    else { p with groups := p.groups.set q.1 (addr bt o) }

/-- what is kept of the members -/
def pureParts (F : File) (bt : Dict Oid Addr) (l : Dict String Entry) (p : Parts) : Parts :=
  l.foldl (pureMember F bt) p

/-- The objects have the names under which the groups and links lead to them. -/
structure Canon (F : File) : Prop where
  hard : ∀ o nd k p np, F.objs o = some nd → (k, Entry.hard p) ∈ nd.members → F.objs p = some np → np.name = k
  link : ∀ o nd k b p np, F.objs o = some nd → (k, Entry.link b (some p)) ∈ nd.members → F.objs p = some np →
    np.name = b

/-- what the data of a builder is -/
def DataImg (F : File) (st : St) (h : HData) (d : BData) : Prop :=
  match h with
  | .data s => d = .data s
  | .refs l => d = .refs l
  | .sref p => ∃ a np e, F.objs p = some np ∧ d = .ref a ∧
      st.heap[a]? = some (.dset np.name (pureAttrs st.built np.attrs []) e)

/-- the builder `b` shows the object `o`, under the name `nm` -/
def Img (F : File) (st : St) (nm : String) (o : Oid) (b : BNode) : Prop :=
  ∃ nd, F.objs o = some nd ∧
    (nd.isData = true → ∃ d, b = .dset nm (pureAttrs st.built nd.attrs []) d ∧ DataImg F st nd.data d) ∧
    (nd.isData = false → mkGroup nm (pureAttrs st.built nd.attrs []) (pureParts F st.built nd.members {}) = .ok b)

/-- later states -/
structure Le (st st' : St) : Prop where
  built : ∀ o a, st.built.get? o = some a → st'.built.get? o = some a
  heap : ∃ t, st'.heap = st.heap ++ t

theorem Le.refl (st : St) : Le st st := ⟨fun _ _ h => h, [], by simp⟩

theorem Le.trans {a b c : St} (h : Le a b) (h' : Le b c) : Le a c := by
  obtain ⟨t, ht⟩ := h.heap
  obtain ⟨u, hu⟩ := h'.heap
  exact ⟨fun o x hx => h'.built o x (h.built o x hx), t ++ u, by rw [hu, ht, List.append_assoc]⟩

theorem Le.at {st st' : St} (h : Le st st') {a : Addr} {b : BNode} (hb : st.heap[a]? = some b) :
    st'.heap[a]? = some b := by
  obtain ⟨t, ht⟩ := h.heap
  have hlt : a < st.heap.length := by
    rcases Nat.lt_or_ge a st.heap.length with h | h
    · exact h
    · rw [List.getElem?_eq_none h] at hb; cases hb
  rw [ht, List.getElem?_append_left hlt, hb]

theorem Le.addr {st st' : St} (h : Le st st') {o : Oid} (ho : o ∈ Dict.keys st.built) :
    addr st'.built o = addr st.built o := by
  cases hg : st.built.get? o with
  | none => exact absurd ho (Dict.get?_eq_none_iff.1 hg)
  | some a => simp [H5Read.addr, hg, h.built o a hg]

theorem pureAttr_le {st st' : St} (h : Le st st') {k : String} {v : HVal}
    (hk : ∀ p, v = .ref p → k ≠ ".specloc" → p ∈ Dict.keys st.built) :
    pureAttr st'.built k v = pureAttr st.built k v := by
  unfold pureAttr
  split
  · rfl
  · rename_i hs
    cases v with
    | ref p => simp only [h.addr (hk p rfl hs)]
    | _ => rfl

theorem pureAttrs_le {st st' : St} (h : Le st st') : ∀ (l : Dict String HVal) (acc : Dict String BAttr),
    (∀ k p, (k, HVal.ref p) ∈ l → k ≠ ".specloc" → p ∈ Dict.keys st.built) →
    pureAttrs st'.built l acc = pureAttrs st.built l acc := by
  intro l
  induction l with
  | nil => intro acc _; rfl
  | cons q l ih =>
    obtain ⟨k, v⟩ := q
    intro acc hk
    simp only [pureAttrs, List.foldl_cons]
    rw [pureAttr_le h (fun p hp => hk k p (by rw [hp]; simp))]
    exact ih _ (fun k p hm => hk k p (List.mem_cons_of_mem _ hm))

theorem pureMember_le {F : File} {st st' : St} (h : Le st st') {q : String × Entry} (p : Parts)
    (hk : ∀ o, q.2.goal = some o → F.ignore o = false → o ∈ Dict.keys st.built) :
    pureMember F st'.built p q = pureMember F st.built p q := by
  obtain ⟨k, e⟩ := q
  unfold pureMember
  cases e with
  | link b t =>
    cases t with
    | none => rfl
    | some o =>
      simp only
      split
      · rfl
      · rename_i hi
        rw [h.addr (hk o rfl (by simpa using hi))]
  | hard o =>
    simp only
    split
    · rfl
    · rename_i hi
      rw [h.addr (hk o rfl (by simpa using hi))]

theorem pureParts_le {F : File} {st st' : St} (h : Le st st') : ∀ (l : Dict String Entry) (p : Parts),
    (∀ k e o, (k, e) ∈ l → e.goal = some o → F.ignore o = false → o ∈ Dict.keys st.built) →
    pureParts F st'.built l p = pureParts F st.built l p := by
  intro l
  induction l with
  | nil => intro p _; rfl
  | cons q l ih =>
    intro p hk
    simp only [pureParts, List.foldl_cons]
    rw [pureMember_le h p (fun o => hk q.1 q.2 o (by simp))]
    exact ih _ (fun k e o hm => hk k e o (List.mem_cons_of_mem _ hm))

theorem Img.mono {F : File} {st st' : St} (h : Le st st') (hc : Closed F st) {nm : String} {o : Oid} {b : BNode}
    (hn : ∀ p, Needs F o p → p ∈ Dict.keys st.built) (hb : Img F st nm o b) : Img F st' nm o b := by
  obtain ⟨nd, hnd, hd, hg⟩ := hb
  have ha := pureAttrs_le h nd.attrs [] (fun k p hm hk => hn p (needs_attr hnd k p hm hk))
  refine ⟨nd, hnd, ?_, ?_⟩
  · intro hi
    obtain ⟨d, hbd, hdi⟩ := hd hi
    refine ⟨d, by rw [ha]; exact hbd, ?_⟩
    unfold DataImg at hdi ⊢
    split
    · rename_i hs; simpa [hs] using hdi
    · rename_i hs; simpa [hs] using hdi
    · rename_i p hs
      simp only [hs] at hdi
      obtain ⟨a, np, e, h1, h2, h3⟩ := hdi
      have hp : p ∈ Dict.keys st.built := hn p ⟨nd, hnd, Or.inr (Or.inl ⟨hi, hs⟩)⟩
      refine ⟨a, np, e, h1, h2, ?_⟩
      rw [pureAttrs_le h np.attrs [] (fun k q hm hk => (hc p hp).2 q (needs_attr h1 k q hm hk))]
      exact h.at h3
  · intro hi
    rw [ha, pureParts_le h nd.members {} (fun k e q hm hg' hig => hn q (needs_member hnd hi k e q hm hg' hig))]
    exact hg hi

/-- Every builder in the cache shows its object. -/
def InvH (F : File) (st : St) : Prop :=
  ∀ o a, st.built.get? o = some a → ∃ nd b, F.objs o = some nd ∧ st.heap[a]? = some b ∧ Img F st nd.name o b

theorem InvH.mono {F : File} {st st' : St} (h : Le st st') (hc : Closed F st) (hi : InvH F st) {o : Oid} {a : Addr}
    (hg : st.built.get? o = some a) :
    ∃ nd b, F.objs o = some nd ∧ st'.heap[a]? = some b ∧ Img F st' nd.name o b := by
  obtain ⟨nd, b, h1, h2, h3⟩ := hi o a hg
  exact ⟨nd, b, h1, h.at h2, h3.mono h hc (hc o (Dict.mem_keys_of_mem (Dict.mem_of_get? hg))).2⟩

/-- What a successful reading of `o` with depth `n` makes. -/
def RecH (F : File) (n : Nat) : Prop :=
  ∀ o nm st a st', readObj F n o nm st = .ok (a, st') → Closed F st → InvH F st →
    Le st st' ∧ InvH F st' ∧
    ∃ nd b, F.objs o = some nd ∧ st'.heap[a]? = some b ∧ Img F st' (nm.getD nd.name) o b

theorem setBuilt_new {st : St} {o : Oid} {a : Addr} (h : o ∉ Dict.keys st.built) : Le st (st.setBuilt o a) ∧
    (st.setBuilt o a).built.get? o = some a ∧
    ∀ p x, (st.setBuilt o a).built.get? p = some x → p = o ∧ x = a ∨ st.built.get? p = some x := by
  have hh : Dict.has st.built o = false := Dict.has_false_iff.2 h
  have he : (st.setBuilt o a).built = Dict.set st.built o a := by simp [St.setBuilt, Dict.setDefault, hh]
  refine ⟨⟨?_, [], by simp [St.setBuilt]⟩, by rw [he]; simp, ?_⟩
  · intro p x hx
    rw [he, Dict.get?_set_ne, hx]
    intro e; subst e
    exact h (Dict.mem_keys_of_mem (Dict.mem_of_get? hx))
  · intro p x hx
    rw [he, Dict.get?_set] at hx
    split at hx
    · rename_i e; cases hx; exact Or.inl ⟨e, rfl⟩
    · exact Or.inr hx

theorem invH_setBuilt {F : File} {st : St} {o : Oid} {a : Addr} (ho : o ∉ Dict.keys st.built) (hc : Closed F st)
    (hi : InvH F st) {nd : Node} {b : BNode} (hnd : F.objs o = some nd) (hb : st.heap[a]? = some b)
    (him : Img F st nd.name o b) (hn : ∀ p, Needs F o p → p ∈ Dict.keys st.built) : InvH F (st.setBuilt o a) := by
  obtain ⟨hle, _, hget⟩ := setBuilt_new (a := a) ho
  intro p x hx
  rcases hget p x hx with ⟨rfl, rfl⟩ | hx
  · exact ⟨nd, b, hnd, hle.at hb, him.mono hle hc hn⟩
  · exact hi.mono hle hc hx

theorem fetch_img {F : File} {n : Nat} (hr : RecH F n) {o : Oid} {nm : Option String} {st st' : St} {a : Addr}
    (hnm : ∀ nd, F.objs o = some nd → nm.getD nd.name = nd.name)
    (h : fetch (readObj F n) o nm st = .ok (a, st')) (hc : Closed F st) (hi : InvH F st) :
    Le st st' ∧ InvH F st' ∧ st'.built.get? o = some a := by
  unfold fetch at h
  split at h
  · rename_i b hb
    cases h
    exact ⟨Le.refl _, hi, hb⟩
  · rename_i hb
    obtain ⟨⟨a1, s1⟩, h1, h2⟩ := bind_ok h
    cases h2
    obtain ⟨c1, g1, e1, n1⟩ := readObj_recOK F n _ _ _ _ _ h1 hc
    obtain ⟨l1, i1, nd, b, hnd, hba, him⟩ := hr _ _ _ _ _ h1 hc hi
    have ho : o ∉ Dict.keys s1.built := by
      intro hm
      rcases g1.new o hm with hm | hm
      · exact Dict.get?_eq_none_iff.1 hb hm
      · exact ends_irrefl e1 hm
    rw [hnm nd hnd] at him
    obtain ⟨hle, hget, _⟩ := setBuilt_new (a := a) ho
    exact ⟨l1.trans hle, invH_setBuilt ho c1 i1 hnd hba him n1, hget⟩

theorem addr_of {bt : Dict Oid Addr} {o : Oid} {a : Addr} (h : bt.get? o = some a) : addr bt o = a := by
  simp [addr, h]

theorem readAttrs_img {F : File} {n : Nat} (hr : RecH F n) (o : Oid) : ∀ (l : Dict String HVal)
    (acc : Dict String BAttr) (st : St) (r : Dict String BAttr) (st' : St),
    (∀ k p, (k, HVal.ref p) ∈ l → k ≠ ".specloc" → Needs F o p) →
    readAttrs (readObj F n) l acc st = .ok (r, st') → Closed F st → InvH F st →
    Le st st' ∧ InvH F st' ∧ r = pureAttrs st'.built l acc := by
  intro l
  induction l with
  | nil =>
    intro acc st r st' _ h hc hi
    cases h
    exact ⟨Le.refl _, hi, rfl⟩
  | cons q l ih =>
    obtain ⟨k, v⟩ := q
    intro acc st r st' hn h hc hi
    obtain ⟨⟨w, s1⟩, h1, h2⟩ := bind_ok h
    have key : Closed F s1 ∧ Le st s1 ∧ InvH F s1 ∧ w = pureAttr s1.built k v ∧
        (∀ p, v = .ref p → k ≠ ".specloc" → p ∈ Dict.keys s1.built) := by
      unfold readAttr at h1
      unfold pureAttr
      split at h1
      · rename_i hk
        cases h1
        exact ⟨hc, Le.refl _, hi, by simp [hk], fun p _ h => absurd hk h⟩
      · rename_i hk
        split at h1
        · cases h1; exact ⟨hc, Le.refl _, hi, by simp [hk], fun p h _ => by cases h⟩
        · cases h1
        · rename_i p0
          obtain ⟨⟨a2, s2⟩, h3, h4⟩ := bind_ok h1
          cases h4
          obtain ⟨c, _, m⟩ := fetch_ok (readObj_recOK F n) h3 hc
          obtain ⟨le, inv, hg⟩ := fetch_img hr (fun _ _ => rfl) h3 hc hi
          refine ⟨c, le, inv, by simp [hk, addr_of hg], ?_⟩
          intro p hp _
          cases hp
          exact m
    obtain ⟨c1, l1, i1, hw, m1⟩ := key
    obtain ⟨l2, i2, hr'⟩ := ih _ s1 r st' (fun k p h => hn k p (List.mem_cons_of_mem _ h)) h2 c1 i1
    refine ⟨l1.trans l2, i2, ?_⟩
    rw [hr', hw]
    simp only [pureAttrs, List.foldl_cons]
    rw [pureAttr_le l2 m1]

theorem readMembers_img {F : File} {n : Nat} (hr : RecH F n) (hF : Canon F) {o : Oid} {nd : Node}
    (hnd : F.objs o = some nd) (hd : nd.isData = false) : ∀ (l : Dict String Entry)
    (p : Parts) (st : St) (p' : Parts) (st' : St), (∀ x ∈ l, x ∈ nd.members) →
    readMembers F (readObj F n) l p st = .ok (p', st') → Closed F st → InvH F st →
    Le st st' ∧ InvH F st' ∧ p' = pureParts F st'.built l p := by
  intro l
  induction l with
  | nil =>
    intro p st p' st' _ h hc hi
    cases h
    exact ⟨Le.refl _, hi, rfl⟩
  | cons x l ih =>
    obtain ⟨k, e⟩ := x
    intro p st p' st' hsub h hc hi
    obtain ⟨⟨p1, s1⟩, h1, h2⟩ := bind_ok h
    have hmem : (k, e) ∈ nd.members := hsub _ (by simp)
    have hneed : ∀ q, e.goal = some q → F.ignore q = false → Needs F o q :=
      fun q hg hig => needs_member hnd hd k e q hmem hg hig
    obtain ⟨c1, _, m1⟩ := readMember_ok (readObj_recOK F n) o hneed h1 hc
    have key : Le st s1 ∧ InvH F s1 ∧ p1 = pureMember F s1.built p (k, e) := by
      unfold readMember at h1
      unfold pureMember
      split at h1
      · cases h1; exact ⟨Le.refl _, hi, rfl⟩
      · rename_i base q0
        split at h1
        · rename_i hig; cases h1; exact ⟨Le.refl _, hi, by simp [hig]⟩
        · rename_i hig
          obtain ⟨⟨a2, s2⟩, h3, h4⟩ := bind_ok h1
          cases h4
          obtain ⟨le, inv, hg⟩ := fetch_img hr (nm := some base) (fun nq hq => (hF.link o nd k base q0 nq hnd hmem hq).symm) h3 hc hi
          exact ⟨le, inv, by simp [hig, addr_of hg]⟩
      · rename_i q0
        split at h1
        · rename_i hig; cases h1; exact ⟨Le.refl _, hi, by simp [hig]⟩
        · rename_i hig
          obtain ⟨⟨a2, s2⟩, h3, h4⟩ := bind_ok h1
          obtain ⟨le, inv, hg⟩ := fetch_img hr (nm := some k) (fun nq hq => (hF.hard o nd k q0 nq hnd hmem hq).symm) h3 hc hi
          have hs : s2 = s1 := by
            simp only [Except.ok.injEq, Prod.mk.injEq] at h4
            exact h4.2
          subst hs
          have hname : s2.nameAt a2 = k := by
            obtain ⟨nq, b, hnq, hb, him⟩ := inv q0 a2 hg
            have : b.name = nq.name := by
              obtain ⟨nq', hnq', h5, h6⟩ := him
              cases hdd : nq'.isData with
              | true => obtain ⟨d, hbd, _⟩ := h5 hdd; rw [hbd]; rfl
              | false =>
                have := h6 hdd
                simp only [mkGroup] at this
                split at this
                · cases this; rfl
                · cases this
            simp [St.nameAt, hb, this, hF.hard o nd k q0 nq hnd hmem hnq]
          refine ⟨le, inv, ?_⟩
          simp only [Except.ok.injEq, Prod.mk.injEq, hname] at h4
          simp only [hig, Bool.false_eq_true, if_false, addr_of hg]
          exact h4.1.symm
    obtain ⟨l1, i1, hp1⟩ := key
    obtain ⟨l2, i2, hp2⟩ := ih p1 s1 p' st' (fun x hx => hsub x (List.mem_cons_of_mem _ hx)) h2 c1 i1
    refine ⟨l1.trans l2, i2, ?_⟩
    rw [hp2, hp1]
    simp only [pureParts, List.foldl_cons]
    rw [pureMember_le l2 p m1]

theorem alloc_le (st : St) (b : BNode) : Le st (st.alloc b).2 := ⟨fun _ _ h => h, [b], rfl⟩

theorem readObj_recH {F : File} (hF : Canon F) : ∀ n, RecH F n := by
  intro n
  induction n with
  | zero => intro o nm st a st' h; simp [readObj] at h
  | succ n ih =>
    intro o nm st a st' h hc hi
    obtain ⟨cfin, _, _, nfin⟩ := readObj_recOK F (n + 1) o nm st a st' h hc
    unfold readObj at h
    split at h
    · cases h
    · rename_i nd hnd
      obtain ⟨⟨attrs, s1⟩, h1, h2⟩ := bind_ok h
      obtain ⟨c1, g1, m1⟩ := readAttrs_ok (readObj_recOK F n) o nd.attrs [] st attrs s1 (needs_attr hnd) h1 hc
      obtain ⟨l1, i1, ha⟩ := readAttrs_img ih o nd.attrs [] st attrs s1 (needs_attr hnd) h1 hc hi
      simp only at h2
      have fin : ∀ s2 : St, Closed F s2 → InvH F s2 → ∀ b, InvH F (s2.alloc b).2 := by
        intro s2 c2 i2 b p x hx
        exact i2.mono (alloc_le s2 b) c2 hx
      split at h2
      · rename_i hd
        obtain ⟨⟨d, s2⟩, h3, h4⟩ := bind_ok h2
        obtain ⟨c2, g2, m2⟩ := readData_ok (readObj_recOK F n) o (fun q hq => ⟨nd, hnd, Or.inr (Or.inl ⟨hd, hq⟩)⟩) h3 c1
        have key : Le s1 s2 ∧ InvH F s2 ∧ DataImg F s2 nd.data d := by
          unfold readData at h3
          unfold DataImg
          split at h3
          · rename_i hq; cases h3; exact ⟨Le.refl _, i1, by simp [hq]⟩
          · rename_i hq; cases h3; exact ⟨Le.refl _, i1, by simp [hq]⟩
          · rename_i q0 hq
            try simp only [hq]
            split at h3
            · cases h3
            · rename_i nq hnq
              split at h3
              · rename_i hdq
                obtain ⟨⟨a3, s3⟩, h5, h6⟩ := bind_ok h3
                cases h6
                obtain ⟨c3, g3, e3, n3⟩ := readObj_recOK F n _ _ _ _ _ h5 c1
                obtain ⟨l3, i3, nd3, b3, hnd3, hb3, him3⟩ := ih _ _ _ _ _ h5 c1 i1
                rw [hnq] at hnd3; cases hnd3
                obtain ⟨_, hx, hy, _⟩ := him3
                rw [hnq] at hx; cases hx
                obtain ⟨e, hbe, _⟩ := hy hdq
                simp only [Option.getD_none] at hbe
                by_cases ho : q0 ∈ Dict.keys s3.built
                · have hs : s3.setBuilt q0 a3 = s3 := by
                    simp [St.setBuilt, Dict.setDefault, Dict.has_iff.2 ho]
                  rw [hs]
                  refine ⟨l3, i3, ?_⟩
                  refine ⟨a3, nq, e, hnq, rfl, ?_⟩
                  rw [hb3, hbe]
                · obtain ⟨hle, _, _⟩ := setBuilt_new (a := a3) ho
                  refine ⟨l3.trans hle, invH_setBuilt ho c3 i3 hnq hb3 ?_ n3, ?_⟩
                  · exact ⟨nq, hnq, hy, fun hf => by rw [hdq] at hf; cases hf⟩
                  · refine ⟨a3, nq, e, hnq, rfl, ?_⟩
                    rw [pureAttrs_le hle nq.attrs [] (fun k p hm hk => n3 p (needs_attr hnq k p hm hk)), hle.at hb3,
                      hbe]
              · cases h3
        obtain ⟨l2, i2, hdi⟩ := key
        simp only [Except.ok.injEq] at h4
        have hat := (Prod.mk.inj h4).1
        have hst := (Prod.mk.inj h4).2
        subst hat; subst hst
        refine ⟨(l1.trans l2).trans (alloc_le s2 _), fin s2 c2 i2 _, nd, _, hnd, List.getElem?_concat_length, ?_⟩
        have hne : ∀ p, Needs F o p → p ∈ Dict.keys s2.built := nfin
        refine Img.mono (alloc_le s2 _) c2 hne ⟨nd, hnd, ?_, fun hf => by rw [hd] at hf; cases hf⟩
        intro _
        refine ⟨d, ?_, hdi⟩
        rw [ha, pureAttrs_le l2 nd.attrs [] m1]
      · rename_i hd
        have hd : nd.isData = false := by simpa using hd
        obtain ⟨⟨p, s2⟩, h3, h4⟩ := bind_ok h2
        obtain ⟨b, h5, h6⟩ := bind_ok h4
        obtain ⟨c2, g2, m2⟩ := readMembers_ok (readObj_recOK F n) o nd.members {} s1 p s2 (needs_member hnd hd) h3 c1
        obtain ⟨l2, i2, hp⟩ := readMembers_img ih hF hnd hd nd.members {} s1 p s2 (fun _ h => h) h3 c1 i1
        simp only [Except.ok.injEq] at h6
        have hat := (Prod.mk.inj h6).1
        have hst := (Prod.mk.inj h6).2
        subst hat; subst hst
        refine ⟨(l1.trans l2).trans (alloc_le s2 _), fin s2 c2 i2 _, nd, _, hnd, List.getElem?_concat_length, ?_⟩
        have hne : ∀ p, Needs F o p → p ∈ Dict.keys s2.built := nfin
        refine Img.mono (alloc_le s2 _) c2 hne ⟨nd, hnd, fun hf => (by rw [hd] at hf; cases hf), ?_⟩
        intro _
        rw [pureAttrs_le l2 nd.attrs [] m1, ← ha, ← hp]
        exact h5

end Verif.H5Read
