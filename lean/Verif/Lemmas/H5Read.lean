import Verif.Model.H5Read
import Mathlib.Logic.Relation

/-!
# Lemmas about reading a file: which objects are read
-/

namespace Verif.H5Read
open Verif

/-- Reading `o` needs the builder of `p`: `p` is a member of the group `o`, one of its links leads to `p`, or an
attribute or the scalar data of `o` refers to `p`. -/
def Needs (F : File) (o p : Oid) : Prop :=
  ∃ nd, F.objs o = some nd ∧
    ((∃ k, (k, HVal.ref p) ∈ nd.attrs ∧ k ≠ ".specloc") ∨
     (nd.isData = true ∧ nd.data = .sref p) ∨
     (nd.isData = false ∧ F.ignore p = false ∧
       ∃ k, (k, Entry.hard p) ∈ nd.members ∨ ∃ b, (k, Entry.link b (some p)) ∈ nd.members))

/-- There is no endless chain of needs from `o`. -/
def Ends (F : File) (o : Oid) : Prop := Acc (fun p o => Needs F o p) o

theorem bind_ok {α β : Type} {x : Except Err α} {f : α → Except Err β} {b : β} (h : (x >>= f) = .ok b) :
    ∃ a, x = .ok a ∧ f a = .ok b := by
  cases x with
  | error e => cases h
  | ok a => exact ⟨a, rfl, h⟩

theorem bind_rec {α β : Type} {x : Except Err α} {f : α → Except Err β} (h : (x >>= f) = .error .recursion) :
    x = .error .recursion ∨ ∃ a, x = .ok a ∧ f a = .error .recursion := by
  cases x with
  | error e =>
    have : Except.error e = (Except.error .recursion : Except Err β) := h
    cases this
    exact Or.inl rfl
  | ok a => exact Or.inr ⟨a, rfl, h⟩

theorem mem_setBuilt {st : St} {o p : Oid} {a : Addr} :
    p ∈ Dict.keys (st.setBuilt o a).built ↔ p = o ∨ p ∈ Dict.keys st.built := by
  simp only [St.setBuilt, Dict.setDefault]
  split
  · rename_i h
    rw [Dict.has_iff] at h
    constructor
    · exact Or.inr
    · rintro (rfl | h')
      · exact h
      · exact h'
  · exact Dict.mem_keys_set

/-- What the cache holds has been read to the end. -/
def Closed (F : File) (st : St) : Prop :=
  ∀ o ∈ Dict.keys st.built, Ends F o ∧ ∀ p, Needs F o p → p ∈ Dict.keys st.built

/-- How far the cache has grown: every new object satisfies `Q`. -/
structure Grown (st st' : St) (Q : Oid → Prop) : Prop where
  keep : ∀ p ∈ Dict.keys st.built, p ∈ Dict.keys st'.built
  new : ∀ p ∈ Dict.keys st'.built, p ∈ Dict.keys st.built ∨ Q p

theorem Grown.refl (st : St) (Q : Oid → Prop) : Grown st st Q := ⟨fun _ h => h, fun _ h => Or.inl h⟩

theorem Grown.trans {a b c : St} {Q : Oid → Prop} (h : Grown a b Q) (h' : Grown b c Q) : Grown a c Q :=
  ⟨fun p hp => h'.keep p (h.keep p hp), fun p hp => (h'.new p hp).elim (fun h1 => h.new p h1) Or.inr⟩

theorem Grown.mono {a b : St} {Q Q' : Oid → Prop} (h : Grown a b Q) (hq : ∀ p, Q p → Q' p) : Grown a b Q' :=
  ⟨h.keep, fun p hp => (h.new p hp).imp id (hq p)⟩

/-- What a successful reading of `o` means for the cache. -/
def RecOK (F : File) (rec : Rec) : Prop :=
  ∀ o nm st a st', rec o nm st = .ok (a, st') → Closed F st →
    Closed F st' ∧ Grown st st' (fun p => Relation.TransGen (Needs F) o p) ∧ Ends F o ∧
    ∀ p, Needs F o p → p ∈ Dict.keys st'.built

theorem ends_irrefl {F : File} {o : Oid} (h : Ends F o) : ¬ Relation.TransGen (Needs F) o o := by
  induction h with
  | intro o _ ih =>
    intro hc
    obtain ⟨p, h1, h2⟩ := Relation.TransGen.head'_iff.1 hc
    exact ih p h1 (Relation.TransGen.tail' h2 h1)

theorem fetch_ok {F : File} {rec : Rec} (hr : RecOK F rec) {o : Oid} {nm : Option String} {st st' : St} {a : Addr}
    (h : fetch rec o nm st = .ok (a, st')) (hc : Closed F st) :
    Closed F st' ∧ Grown st st' (fun p => Relation.ReflTransGen (Needs F) o p) ∧ o ∈ Dict.keys st'.built := by
  unfold fetch at h
  split at h
  · rename_i b hb
    cases h
    exact ⟨hc, Grown.refl _ _, Dict.mem_keys_of_mem (Dict.mem_of_get? hb)⟩
  · obtain ⟨⟨a1, s1⟩, h1, h2⟩ := bind_ok h
    cases h2
    obtain ⟨c1, g1, e1, n1⟩ := hr _ _ _ _ _ h1 hc
    refine ⟨?_, ?_, mem_setBuilt.2 (Or.inl rfl)⟩
    · intro p hp
      rcases mem_setBuilt.1 hp with rfl | hp
      · exact ⟨e1, fun q hq => mem_setBuilt.2 (Or.inr (n1 q hq))⟩
      · exact ⟨(c1 p hp).1, fun q hq => mem_setBuilt.2 (Or.inr ((c1 p hp).2 q hq))⟩
    · constructor
      · intro p hp; exact mem_setBuilt.2 (Or.inr (g1.keep p hp))
      · intro p hp
        rcases mem_setBuilt.1 hp with rfl | hp
        · exact Or.inr Relation.ReflTransGen.refl
        · exact (g1.new p hp).imp id Relation.TransGen.to_reflTransGen

theorem readAttrs_ok {F : File} {rec : Rec} (hr : RecOK F rec) (o : Oid) : ∀ (l : Dict String HVal)
    (acc : Dict String BAttr) (st : St) (r : Dict String BAttr) (st' : St),
    (∀ k p, (k, HVal.ref p) ∈ l → k ≠ ".specloc" → Needs F o p) →
    readAttrs rec l acc st = .ok (r, st') → Closed F st →
    Closed F st' ∧ Grown st st' (fun p => Relation.TransGen (Needs F) o p) ∧
    ∀ k p, (k, HVal.ref p) ∈ l → k ≠ ".specloc" → p ∈ Dict.keys st'.built := by
  intro l
  induction l with
  | nil =>
    intro acc st r st' _ h hc
    cases h
    exact ⟨hc, Grown.refl _ _, fun k p h => by cases h⟩
  | cons q l ih =>
    obtain ⟨k, v⟩ := q
    intro acc st r st' hn h hc
    obtain ⟨⟨w, s1⟩, h1, h2⟩ := bind_ok h
    have key : Closed F s1 ∧ Grown st s1 (fun p => Relation.TransGen (Needs F) o p) ∧
        ∀ p, v = .ref p → k ≠ ".specloc" → p ∈ Dict.keys s1.built := by
      unfold readAttr at h1
      split at h1
      · rename_i hk
        cases h1
        exact ⟨hc, Grown.refl _ _, fun p _ h => absurd hk h⟩
      · rename_i hk
        split at h1
        · cases h1; exact ⟨hc, Grown.refl _ _, fun p h _ => by cases h⟩
        · cases h1
        · rename_i p0
          obtain ⟨⟨a2, s2⟩, h3, h4⟩ := bind_ok h1
          cases h4
          obtain ⟨c, g, m⟩ := fetch_ok hr h3 hc
          have hd := hn k p0 (by simp) hk
          refine ⟨c, g.mono (fun p hp => Relation.TransGen.head' hd hp), ?_⟩
          intro p hp _
          cases hp
          exact m
    obtain ⟨c1, g1, m1⟩ := key
    obtain ⟨c2, g2, m2⟩ := ih _ s1 r st' (fun k p h => hn k p (List.mem_cons_of_mem _ h)) h2 c1
    refine ⟨c2, g1.trans g2, ?_⟩
    intro k' p hp hk
    rcases List.mem_cons.1 hp with he | hp
    · obtain ⟨rfl, rfl⟩ := Prod.mk.inj he
      exact g2.keep _ (m1 p rfl hk)
    · exact m2 k' p hp hk

/-- the object a member leads to -/
def Entry.goal : Entry → Option Oid
  | .hard o => some o
  | .link _ t => t

theorem readMember_ok {F : File} {rec : Rec} (hr : RecOK F rec) (o : Oid) {k : String} {e : Entry} {p p' : Parts}
    {st st' : St} (hn : ∀ q, e.goal = some q → F.ignore q = false → Needs F o q)
    (h : readMember F rec k e p st = .ok (p', st')) (hc : Closed F st) :
    Closed F st' ∧ Grown st st' (fun p => Relation.TransGen (Needs F) o p) ∧
    ∀ q, e.goal = some q → F.ignore q = false → q ∈ Dict.keys st'.built := by
  unfold readMember at h
  split at h
  · cases h; exact ⟨hc, Grown.refl _ _, fun q h => by cases h⟩
  · rename_i base q0
    split at h
    · rename_i hi
      cases h
      refine ⟨hc, Grown.refl _ _, fun q h h' => ?_⟩
      cases h; rw [hi] at h'; cases h'
    · rename_i hi
      obtain ⟨⟨a2, s2⟩, h3, h4⟩ := bind_ok h
      cases h4
      obtain ⟨c, g, m⟩ := fetch_ok hr h3 hc
      have hd := hn q0 rfl (by simpa using hi)
      refine ⟨c, g.mono (fun p hp => Relation.TransGen.head' hd hp), fun q h _ => ?_⟩
      cases h; exact m
  · rename_i q0
    split at h
    · rename_i hi
      cases h
      refine ⟨hc, Grown.refl _ _, fun q h h' => ?_⟩
      cases h; rw [hi] at h'; cases h'
    · rename_i hi
      obtain ⟨⟨a2, s2⟩, h3, h4⟩ := bind_ok h
      obtain ⟨c, g, m⟩ := fetch_ok hr h3 hc
      have hs : s2 = st' := by
        simp only [Except.ok.injEq, Prod.mk.injEq] at h4
        exact h4.2
      subst hs
      have hd := hn q0 rfl (by simpa using hi)
      refine ⟨c, g.mono (fun p hp => Relation.TransGen.head' hd hp), fun q h _ => ?_⟩
      cases h; exact m

theorem readMembers_ok {F : File} {rec : Rec} (hr : RecOK F rec) (o : Oid) : ∀ (l : Dict String Entry)
    (p : Parts) (st : St) (p' : Parts) (st' : St),
    (∀ k e q, (k, e) ∈ l → e.goal = some q → F.ignore q = false → Needs F o q) →
    readMembers F rec l p st = .ok (p', st') → Closed F st →
    Closed F st' ∧ Grown st st' (fun p => Relation.TransGen (Needs F) o p) ∧
    ∀ k e q, (k, e) ∈ l → e.goal = some q → F.ignore q = false → q ∈ Dict.keys st'.built := by
  intro l
  induction l with
  | nil =>
    intro p st p' st' _ h hc
    cases h
    exact ⟨hc, Grown.refl _ _, fun k e q h => by cases h⟩
  | cons x l ih =>
    obtain ⟨k, e⟩ := x
    intro p st p' st' hn h hc
    obtain ⟨⟨p1, s1⟩, h1, h2⟩ := bind_ok h
    obtain ⟨c1, g1, m1⟩ := readMember_ok hr o (fun q => hn k e q (by simp)) h1 hc
    obtain ⟨c2, g2, m2⟩ := ih p1 s1 p' st' (fun k e q h => hn k e q (List.mem_cons_of_mem _ h)) h2 c1
    refine ⟨c2, g1.trans g2, ?_⟩
    intro k' e' q hq hg hi
    rcases List.mem_cons.1 hq with he | hq
    · obtain ⟨rfl, rfl⟩ := Prod.mk.inj he
      exact g2.keep _ (m1 q hg hi)
    · exact m2 k' e' q hq hg hi

theorem readData_ok {F : File} {rec : Rec} (hr : RecOK F rec) (o : Oid) {d : HData} {b : BData} {st st' : St}
    (hn : ∀ q, d = .sref q → Needs F o q) (h : readData F rec d st = .ok (b, st')) (hc : Closed F st) :
    Closed F st' ∧ Grown st st' (fun p => Relation.TransGen (Needs F) o p) ∧
    ∀ q, d = .sref q → q ∈ Dict.keys st'.built := by
  unfold readData at h
  split at h
  · cases h; exact ⟨hc, Grown.refl _ _, fun q h => by cases h⟩
  · cases h; exact ⟨hc, Grown.refl _ _, fun q h => by cases h⟩
  · rename_i q0
    split at h
    · cases h
    · split at h
      · obtain ⟨⟨a1, s1⟩, h1, h2⟩ := bind_ok h
        cases h2
        obtain ⟨c1, g1, e1, n1⟩ := hr _ _ _ _ _ h1 hc
        have hd := hn q0 rfl
        refine ⟨?_, ?_, ?_⟩
        · intro p hp
          rcases mem_setBuilt.1 hp with rfl | hp
          · exact ⟨e1, fun q hq => mem_setBuilt.2 (Or.inr (n1 q hq))⟩
          · exact ⟨(c1 p hp).1, fun q hq => mem_setBuilt.2 (Or.inr ((c1 p hp).2 q hq))⟩
        · constructor
          · intro p hp; exact mem_setBuilt.2 (Or.inr (g1.keep p hp))
          · intro p hp
            rcases mem_setBuilt.1 hp with rfl | hp
            · exact Or.inr (Relation.TransGen.single hd)
            · exact (g1.new p hp).imp id (fun h => Relation.TransGen.head hd h)
        · intro q hq
          cases hq
          exact mem_setBuilt.2 (Or.inl rfl)
      · cases h

theorem needs_attr {F : File} {o : Oid} {nd : Node} (h : F.objs o = some nd) (k : String) (p : Oid)
    (hm : (k, HVal.ref p) ∈ nd.attrs) (hk : k ≠ ".specloc") : Needs F o p := ⟨nd, h, Or.inl ⟨k, hm, hk⟩⟩

theorem needs_member {F : File} {o : Oid} {nd : Node} (h : F.objs o = some nd) (hd : nd.isData = false) (k : String)
    (e : Entry) (p : Oid) (hm : (k, e) ∈ nd.members) (hg : e.goal = some p) (hi : F.ignore p = false) :
    Needs F o p := by
  refine ⟨nd, h, Or.inr (Or.inr ⟨hd, hi, k, ?_⟩)⟩
  cases e with
  | hard q => cases hg; exact Or.inl hm
  | link b t => cases hg; exact Or.inr ⟨b, hm⟩

theorem readObj_recOK (F : File) : ∀ n, RecOK F (readObj F n) := by
  intro n
  induction n with
  | zero => intro o nm st a st' h; simp [readObj] at h
  | succ n ih =>
    intro o nm st a st' h hc
    unfold readObj at h
    split at h
    · cases h
    · rename_i nd hnd
      obtain ⟨⟨attrs, s1⟩, h1, h2⟩ := bind_ok h
      obtain ⟨c1, g1, m1⟩ := readAttrs_ok ih o nd.attrs [] st attrs s1 (needs_attr hnd) h1 hc
      have key : ∃ s2 b, (a, st') = St.alloc s2 b ∧ Closed F s2 ∧
          Grown s1 s2 (fun p => Relation.TransGen (Needs F) o p) ∧
          (nd.isData = true → ∀ q, nd.data = .sref q → q ∈ Dict.keys s2.built) ∧
          (nd.isData = false → ∀ k e q, (k, e) ∈ nd.members → e.goal = some q → F.ignore q = false →
            q ∈ Dict.keys s2.built) := by
        simp only at h2
        split at h2
        · rename_i hd
          obtain ⟨⟨d, s2⟩, h3, h4⟩ := bind_ok h2
          cases h4
          obtain ⟨c2, g2, m2⟩ := readData_ok ih o (fun q hq => ⟨nd, hnd, Or.inr (Or.inl ⟨hd, hq⟩)⟩) h3 c1
          exact ⟨s2, _, rfl, c2, g2, fun _ => m2, fun hf => by rw [hd] at hf; cases hf⟩
        · rename_i hd
          have hd : nd.isData = false := by simpa using hd
          obtain ⟨⟨p, s2⟩, h3, h4⟩ := bind_ok h2
          obtain ⟨b, h5, h6⟩ := bind_ok h4
          cases h6
          obtain ⟨c2, g2, m2⟩ := readMembers_ok ih o nd.members {} s1 p s2 (needs_member hnd hd) h3 c1
          exact ⟨s2, b, rfl, c2, g2, fun hf => (by rw [hd] at hf; cases hf), fun _ => m2⟩
      obtain ⟨s2, b, he, c2, g2, md, mm⟩ := key
      obtain ⟨rfl, rfl⟩ := Prod.mk.inj he
      have hneed : ∀ p, Needs F o p → p ∈ Dict.keys s2.built := by
        rintro p ⟨nd', hnd', hcase⟩
        rw [hnd] at hnd'; cases hnd'
        rcases hcase with ⟨k, hm, hk⟩ | ⟨hd, hs⟩ | ⟨hd, hi, k, hm | ⟨b, hm⟩⟩
        · exact g2.keep _ (m1 k p hm hk)
        · exact md hd p hs
        · exact mm hd k _ p hm rfl hi
        · exact mm hd k _ p hm rfl hi
      refine ⟨c2, ⟨(g1.trans g2).keep, (g1.trans g2).new⟩, ?_, hneed⟩
      exact Acc.intro _ (fun p hp => (c2 p (hneed p hp)).1)

/-! ## Reading ends where there is no endless chain -/

/-- Reading `p` with depth `m` or more does not run out of depth. -/
def Deep (F : File) (p : Oid) (m : Nat) : Prop :=
  ∀ n, m ≤ n → ∀ nm st, readObj F n p nm st ≠ .error .recursion

theorem fetch_deep {F : File} {n : Nat} {o : Oid} {nm : Option String} {st : St}
    (h : ∀ nm st, readObj F n o nm st ≠ .error .recursion) : fetch (readObj F n) o nm st ≠ .error .recursion := by
  unfold fetch
  split
  · simp
  · intro hc
    rcases bind_rec hc with h1 | ⟨a, _, h2⟩
    · exact h _ _ h1
    · cases h2

theorem readAttrs_deep {F : File} {n : Nat} : ∀ (l : Dict String HVal) (acc : Dict String BAttr) (st : St),
    (∀ k p, (k, HVal.ref p) ∈ l → k ≠ ".specloc" → ∀ nm st, readObj F n p nm st ≠ .error .recursion) →
    readAttrs (readObj F n) l acc st ≠ .error .recursion := by
  intro l
  induction l with
  | nil => intro acc st _ h; cases h
  | cons q l ih =>
    obtain ⟨k, v⟩ := q
    intro acc st hp hc
    rcases bind_rec hc with h1 | ⟨⟨w, s1⟩, _, h2⟩
    · unfold readAttr at h1
      split at h1
      · cases h1
      · rename_i hk
        split at h1
        · cases h1
        · cases h1
        · rename_i p0
          rcases bind_rec h1 with h3 | ⟨a, _, h3⟩
          · exact fetch_deep (hp k p0 (by simp) hk) h3
          · cases h3
    · exact ih _ _ (fun k p h => hp k p (List.mem_cons_of_mem _ h)) h2

theorem readMembers_deep {F : File} {n : Nat} : ∀ (l : Dict String Entry) (p : Parts) (st : St),
    (∀ k e q, (k, e) ∈ l → e.goal = some q → F.ignore q = false →
      ∀ nm st, readObj F n q nm st ≠ .error .recursion) →
    readMembers F (readObj F n) l p st ≠ .error .recursion := by
  intro l
  induction l with
  | nil => intro p st _ h; cases h
  | cons x l ih =>
    obtain ⟨k, e⟩ := x
    intro p st hp hc
    rcases bind_rec hc with h1 | ⟨⟨w, s1⟩, _, h2⟩
    · unfold readMember at h1
      split at h1
      · cases h1
      · rename_i b q
        split at h1
        · cases h1
        · rename_i hi
          rcases bind_rec h1 with h3 | ⟨a, _, h3⟩
          · exact fetch_deep (hp k _ q (List.mem_cons_self ..) rfl (by simpa using hi)) h3
          · cases h3
      · rename_i q
        split at h1
        · cases h1
        · rename_i hi
          rcases bind_rec h1 with h3 | ⟨a, _, h3⟩
          · exact fetch_deep (hp k _ q (List.mem_cons_self ..) rfl (by simpa using hi)) h3
          · cases h3
    · exact ih _ _ (fun k e q h => hp k e q (List.mem_cons_of_mem _ h)) h2

theorem readObj_deep {F : File} {n : Nat} {o : Oid} (hp : ∀ p, Needs F o p → ∀ nm st,
    readObj F n p nm st ≠ .error .recursion) (nm : Option String) (st : St) :
    readObj F (n + 1) o nm st ≠ .error .recursion := by
  intro h
  unfold readObj at h
  split at h
  · cases h
  · rename_i nd hnd
    rcases bind_rec h with h1 | ⟨⟨attrs, s1⟩, _, h2⟩
    · exact readAttrs_deep _ _ _ (fun k p hm hk => hp p (needs_attr hnd k p hm hk)) h1
    · simp only at h2
      split at h2
      · rename_i hd
        rcases bind_rec h2 with h3 | ⟨a, _, h4⟩
        · unfold readData at h3
          split at h3
          · cases h3
          · cases h3
          · rename_i q0 hq
            split at h3
            · cases h3
            · split at h3
              · rcases bind_rec h3 with h5 | ⟨a, _, h5⟩
                · exact hp q0 ⟨nd, hnd, Or.inr (Or.inl ⟨hd, hq⟩)⟩ _ _ h5
                · cases h5
              · cases h3
        · cases h4
      · rename_i hd
        have hd : nd.isData = false := by simpa using hd
        rcases bind_rec h2 with h3 | ⟨⟨p, s2⟩, _, h4⟩
        · exact readMembers_deep _ _ _ (fun k e q hm hg hi => hp q (needs_member hnd hd k e q hm hg hi)) h3
        · rcases bind_rec h4 with h5 | ⟨b, _, h5⟩
          · simp only [mkGroup] at h5
            split at h5 <;> cases h5
          · cases h5

/-- what a node may need, as a list -/
def needsList (nd : Node) : List Oid :=
  nd.attrs.filterMap (fun q => match q.2 with | .ref p => some p | _ => none) ++
  (match nd.data with | .sref p => [p] | _ => []) ++ nd.members.filterMap (fun q => q.2.goal)

theorem needs_list {F : File} {o p : Oid} {nd : Node} (hnd : F.objs o = some nd) (h : Needs F o p) :
    p ∈ needsList nd := by
  obtain ⟨nd', hnd', hcase⟩ := h
  rw [hnd] at hnd'; cases hnd'
  simp only [needsList, List.mem_append, List.mem_filterMap]
  rcases hcase with ⟨k, hm, _⟩ | ⟨_, hs⟩ | ⟨_, _, k, hm | ⟨b, hm⟩⟩
  · exact Or.inl (Or.inl ⟨_, hm, rfl⟩)
  · exact Or.inl (Or.inr (by rw [hs]; simp))
  · exact Or.inr ⟨_, hm, rfl⟩
  · exact Or.inr ⟨_, hm, rfl⟩

theorem common_bound {F : File} : ∀ l : List Oid, (∀ p ∈ l, ∃ m, Deep F p m) → ∃ m, ∀ p ∈ l, Deep F p m := by
  intro l
  induction l with
  | nil => intro _; exact ⟨0, fun p h => by cases h⟩
  | cons q l ih =>
    intro h
    obtain ⟨m1, h1⟩ := h q (by simp)
    obtain ⟨m2, h2⟩ := ih (fun p hp => h p (List.mem_cons_of_mem _ hp))
    refine ⟨max m1 m2, ?_⟩
    intro p hp n hn
    rcases List.mem_cons.1 hp with rfl | hp
    · exact h1 n (Nat.le_trans (Nat.le_max_left _ _) hn)
    · exact h2 p hp n (Nat.le_trans (Nat.le_max_right _ _) hn)

theorem ends_deep {F : File} {o : Oid} (h : Ends F o) : ∃ m, Deep F o m := by
  classical
  induction h with
  | intro o _ ih =>
    cases hnd : F.objs o with
    | none =>
      refine ⟨1, ?_⟩
      intro n hn nm st
      obtain ⟨k, rfl⟩ := Nat.exists_eq_add_of_le' hn
      simp [readObj, hnd]
    | some nd =>
      obtain ⟨m, hm⟩ := common_bound (F := F) ((needsList nd).filter (fun p => decide (Needs F o p)))
        (fun p hp => ih p (by simpa using (List.mem_filter.1 hp).2))
      refine ⟨m + 1, ?_⟩
      intro n hn nm st
      cases n with
      | zero => exact absurd hn (by omega)
      | succ n =>
        refine readObj_deep (fun p hp => ?_) nm st
        exact hm p (List.mem_filter.2 ⟨needs_list hnd hp, by simpa using hp⟩) n (by omega)

end Verif.H5Read
