import Verif.Model.Builders
import Verif.Base.Tac
import Mathlib.Logic.Relation

/-!
# Lemmas about builders
-/

namespace Verif.Builders
open Verif Relation

@[simp] theorem upd_node (h : Heap) (n : Nat) (f : Node → Node) (m : Nat) :
    (h.upd n f).node m = if m = n then f (h.node n) else h.node m := rfl

@[simp] theorem upd_size (h : Heap) (n : Nat) (f : Node → Node) : (h.upd n f).size = h.size := rfl

/-- the sub-builders of a builder -/
def kids (b : Node) : List Nat := b.groups.values ++ b.datasets.values ++ b.links.values

/-- a builder without its source -/
def noSrc (b : Node) : Node := { b with source := none }

/-- a builder without its source and parent -/
def noSrcPar (b : Node) : Node := { b with source := none, parent := none }

/-- only sources differ, and those present stay -/
structure Src (h h' : Heap) : Prop where
  size : h'.size = h.size
  rest : ∀ n, noSrc (h'.node n) = noSrc (h.node n)
  keep : ∀ n v, (h.node n).source = some v → (h'.node n).source = some v

theorem Src.refl (h : Heap) : Src h h := ⟨rfl, fun _ => rfl, fun _ _ h => h⟩

theorem Src.trans {a b c : Heap} (h : Src a b) (g : Src b c) : Src a c :=
  ⟨g.size.trans h.size, fun n => (g.rest n).trans (h.rest n), fun n v hv => g.keep n v (h.keep n v hv)⟩

theorem Src.name {h h' : Heap} (s : Src h h') (n : Nat) : (h'.node n).name = (h.node n).name :=
  (congrArg Node.name (s.rest n) :)
theorem Src.kind {h h' : Heap} (s : Src h h') (n : Nat) : (h'.node n).kind = (h.node n).kind :=
  (congrArg Node.kind (s.rest n) :)
theorem Src.parent {h h' : Heap} (s : Src h h') (n : Nat) : (h'.node n).parent = (h.node n).parent :=
  (congrArg Node.parent (s.rest n) :)
theorem Src.objType {h h' : Heap} (s : Src h h') (n : Nat) : (h'.node n).objType = (h.node n).objType :=
  (congrArg Node.objType (s.rest n) :)
theorem Src.attrs {h h' : Heap} (s : Src h h') (n : Nat) : (h'.node n).attrs = (h.node n).attrs :=
  (congrArg Node.attrs (s.rest n) :)
theorem Src.groups {h h' : Heap} (s : Src h h') (n : Nat) : (h'.node n).groups = (h.node n).groups :=
  (congrArg Node.groups (s.rest n) :)
theorem Src.datasets {h h' : Heap} (s : Src h h') (n : Nat) : (h'.node n).datasets = (h.node n).datasets :=
  (congrArg Node.datasets (s.rest n) :)
theorem Src.links {h h' : Heap} (s : Src h h') (n : Nat) : (h'.node n).links = (h.node n).links :=
  (congrArg Node.links (s.rest n) :)
theorem Src.kids {h h' : Heap} (s : Src h h') (n : Nat) : kids (h'.node n) = kids (h.node n) := by
  unfold Builders.kids; rw [s.groups, s.datasets, s.links]
theorem Src.sub {h h' : Heap} (s : Src h h') (n : Nat) (k : Kind) : (h'.node n).sub k = (h.node n).sub k := by
  cases k <;> simp only [Node.sub, s.groups, s.datasets, s.links]

theorem src_set {h : Heap} {n : Nat} (s : Option String) (hn : (h.node n).source = none) :
    Src h (h.upd n fun b => { b with source := s }) := by
  refine ⟨rfl, ?_, ?_⟩
  · intro m; simp only [upd_node]; split
    · rename_i e; subst e; rfl
    · rfl
  · intro m v hv; simp only [upd_node]; split
    · rename_i e; subst e; rw [hn] at hv; simp at hv
    · exact hv

theorem propagate_src {f : Heap → Nat → Heap × Except Err Unit} (hf : ∀ h c, Src h (f h c).1) :
    ∀ (cs : List Nat) (h : Heap), Src h (propagate f h cs).1 := by
  intro cs
  induction cs with
  | nil => intro h; exact Src.refl h
  | cons c cs ih =>
    intro h
    simp only [propagate]
    split
    · have h1 := hf h c
      cases hc : f h c with
      | mk h2 r =>
        rw [hc] at h1
        cases r with
        | error e => exact h1
        | ok u => exact h1.trans (ih h2)
    · exact ih h

theorem setSource_src : ∀ (k : Nat) (h : Heap) (n : Nat) (s : Option String), Src h (setSource k h n s).1 := by
  intro k
  induction k with
  | zero => intro h n s; exact Src.refl h
  | succ k ih =>
    intro h n s
    simp only [setSource]
    split
    · exact Src.refl h
    · rename_i hn
      have hn' : (h.node n).source = none := by simpa using hn
      exact (src_set s hn').trans (propagate_src (fun h c => ih h c s) _ _)

/-- one step down to a builder without a source -/
def White (h : Heap) (a b : Nat) : Prop := b ∈ kids (h.node a) ∧ (h.node b).source = none

theorem White.mono {h h' : Heap} (s : Src h h') {a b : Nat} (w : White h' a b) : White h a b := by
  refine ⟨by rw [← s.kids]; exact w.1, ?_⟩
  cases hb : (h.node b).source with
  | none => rfl
  | some v => have := s.keep b v hb; rw [w.2] at this; simp at this

/-- what a call that returned has done -/
structure Marked (h h' : Heap) (roots : List Nat) (s : String) : Prop where
  src : Src h h'
  sound : ∀ m, (h.node m).source = none → (h'.node m).source ≠ none →
    (h'.node m).source = some s ∧ ∃ r ∈ roots, ReflTransGen (White h) r m
  closed : ∀ m, (h.node m).source = none → (h'.node m).source ≠ none → ∀ c ∈ kids (h.node m), (h'.node c).source ≠ none
  roots : ∀ r ∈ roots, (h'.node r).source ≠ none

theorem reflTransGen_mono {r p : Nat → Nat → Prop} (h : ∀ a b, r a b → p a b) {a b : Nat} (hab : ReflTransGen r a b) :
    ReflTransGen p a b := by
  induction hab with
  | refl => exact .refl
  | tail _ h2 ih => exact ih.tail (h _ _ h2)

theorem propagate_marked {f : Heap → Nat → Heap × Except Err Unit} {s : String}
    (hf : ∀ h c h', (h.node c).source = none → f h c = (h', .ok ()) → Marked h h' [c] s) :
    ∀ (cs : List Nat) (h h' : Heap), propagate f h cs = (h', .ok ()) →
      Src h h' ∧
      (∀ m, (h.node m).source = none → (h'.node m).source ≠ none →
        (h'.node m).source = some s ∧ ∃ r ∈ cs, (h.node r).source = none ∧ ReflTransGen (White h) r m) ∧
      (∀ m, (h.node m).source = none → (h'.node m).source ≠ none → ∀ c ∈ kids (h.node m), (h'.node c).source ≠ none) ∧
      (∀ r ∈ cs, (h'.node r).source ≠ none) := by
  intro cs
  induction cs with
  | nil =>
    intro h h' he
    simp only [propagate, Prod.mk.injEq, and_true] at he; subst he
    exact ⟨Src.refl h, fun m h1 h2 => absurd h1 h2, fun m h1 h2 => absurd h1 h2, by simp⟩
  | cons c cs ih =>
    intro h h' he
    simp only [propagate] at he
    split at he
    · rename_i hcn
      cases hc : f h c with
      | mk h1 r =>
        rw [hc] at he
        cases r with
        | error e => simp at he
        | ok u =>
          simp only at he
          have m1 := hf h c h1 hcn hc
          obtain ⟨s2, p1, p2, p3⟩ := ih h1 h' he
          have keep : ∀ m, (h1.node m).source ≠ none → (h'.node m).source = (h1.node m).source := by
            intro m hm
            cases hv : (h1.node m).source with
            | none => exact absurd hv hm
            | some v => exact s2.keep m v hv
          refine ⟨m1.src.trans s2, ?_, ?_, ?_⟩
          · intro m hm hm'
            by_cases h1m : (h1.node m).source = none
            · obtain ⟨q1, r, hr, hrn, q2⟩ := p1 m h1m hm'
              refine ⟨q1, r, by simp [hr], ?_, reflTransGen_mono (fun a b w => White.mono m1.src w) q2⟩
              cases hb : (h.node r).source with
              | none => rfl
              | some v => have := m1.src.keep r v hb; rw [hrn] at this; simp at this
            · obtain ⟨q1, r, hr, q2⟩ := m1.sound m hm h1m
              simp only [List.mem_singleton] at hr
              subst hr
              exact ⟨by rw [keep m h1m]; exact q1, r, by simp, hcn, q2⟩
          · intro m hm hm' d hd
            by_cases h1m : (h1.node m).source = none
            · exact p2 m h1m hm' d (by rw [m1.src.kids]; exact hd)
            · have := m1.closed m hm h1m d hd
              rw [keep d this]; exact this
          · intro r hr
            simp only [List.mem_cons] at hr
            rcases hr with rfl | hr
            · have := m1.roots r (by simp)
              rw [keep r this]; exact this
            · exact p3 r hr
    · rename_i hcn
      obtain ⟨s2, p1, p2, p3⟩ := ih h h' he
      refine ⟨s2, ?_, p2, ?_⟩
      · intro m hm hm'
        obtain ⟨q1, r, hr, q2⟩ := p1 m hm hm'
        exact ⟨q1, r, by simp [hr], q2⟩
      · intro r hr
        simp only [List.mem_cons] at hr
        rcases hr with rfl | hr
        · cases hv : (h.node r).source with
          | none => exact absurd hv hcn
          | some v => rw [s2.keep r v hv]; simp
        · exact p3 r hr

theorem setSource_marked : ∀ (k : Nat) (h h' : Heap) (n : Nat) (s : String), setSource k h n (some s) = (h', .ok ()) →
    Marked h h' [n] s ∧ (h.node n).source = none := by
  intro k
  induction k with
  | zero => intro h h' n s he; simp [setSource] at he
  | succ k ih =>
    intro h h' n s he
    simp only [setSource] at he
    split at he
    · simp at he
    · rename_i hn
      have hn' : (h.node n).source = none := by simpa using hn
      have hs := src_set (some s) hn'
      obtain ⟨s2, p1, p2, p3⟩ := propagate_marked (s := s)
        (fun h c h' hcn hh => (ih h h' c s hh).1) _ _ _ he
      have hkids : (h.node n).groups.values ++ (h.node n).datasets.values ++ (h.node n).links.values = kids (h.node n) := rfl
      rw [hkids] at p1 p3
      have hnn : (h'.node n).source = some s := s2.keep n s (by simp)
      refine ⟨⟨hs.trans s2, ?_, ?_, ?_⟩, hn'⟩
      · intro m hm hm'
        by_cases e : m = n
        · subst e; exact ⟨hnn, m, by simp, .refl⟩
        · obtain ⟨q1, r, hr, hrn, q2⟩ := p1 m (by simp [e, hm]) hm'
          refine ⟨q1, n, by simp, ReflTransGen.head ⟨hr, ?_⟩ (reflTransGen_mono (fun a b w => White.mono hs w) q2)⟩
          simp only [upd_node] at hrn
          split at hrn
          · simp at hrn
          · exact hrn
      · intro m hm hm' c hc
        by_cases e : m = n
        · subst e; exact p3 c hc
        · refine p2 m (by simp [e, hm]) hm' c ?_
          simp only [upd_node, e, if_false]; exact hc
      · intro r hr
        simp only [List.mem_singleton] at hr
        subst hr; rw [hnn]; simp

/-- names in a category -/
def names (b : Node) : Kind → List Key
  | .group => Dict.keys b.groups
  | .dataset => Dict.keys b.datasets
  | .link => Dict.keys b.links
  | .attr => Dict.keys b.attrs

/-- invariant of one builder -/
structure GInv (b : Node) : Prop where
  type : ∀ name k, Dict.get? b.objType name = some k ↔ name ∈ names b k

/-- invariant of the heap -/
structure HInv (h : Heap) : Prop where
  g : ∀ n, GInv (h.node n)
  sub : ∀ n k name c, Dict.get? ((h.node n).sub k) name = some c → c < h.size ∧ (h.node c).kind = k ∧ (h.node c).name = name

theorem hinv_empty : HInv Heap.empty := by
  refine ⟨fun n => ⟨?_⟩, ?_⟩
  · intro name k; cases k <;> simp [Heap.empty, names, Dict.get?, Dict.keys]
  · intro n k name c h
    cases k <;> simp [Heap.empty, Node.sub, Dict.get?] at h

theorem HInv.src {h h' : Heap} (i : HInv h) (s : Src h h') : HInv h' := by
  refine ⟨fun n => ⟨?_⟩, ?_⟩
  · intro name k
    rw [s.objType, (i.g n).type]
    cases k <;> simp only [names, s.groups, s.datasets, s.links, s.attrs]
  · intro n k name c hc
    rw [s.sub] at hc
    rw [s.size, s.kind, s.name]
    exact i.sub n k name c hc

/-- what `setBuilder` does to the group when it stores -/
def stored (h : Heap) (n c : Nat) : Heap :=
  h.upd n fun b => { b.setSub (h.node c).kind (h.node c).name c with objType := b.objType.set (h.node c).name (h.node c).kind }

/-- only sources and parents differ, and those present stay -/
structure SrcPar (h h' : Heap) : Prop where
  size : h'.size = h.size
  rest : ∀ n, noSrcPar (h'.node n) = noSrcPar (h.node n)
  keep : ∀ n v, (h.node n).source = some v → (h'.node n).source = some v
  keepP : ∀ n v, (h.node n).parent = some v → (h'.node n).parent = some v

theorem Src.srcPar {h h' : Heap} (s : Src h h') : SrcPar h h' := by
  refine ⟨s.size, fun n => ?_, s.keep, fun n v hv => by rw [s.parent]; exact hv⟩
  have := s.rest n
  exact congrArg (fun b : Node => { b with parent := none }) this

theorem SrcPar.trans {a b c : Heap} (h : SrcPar a b) (g : SrcPar b c) : SrcPar a c :=
  ⟨g.size.trans h.size, fun n => (g.rest n).trans (h.rest n), fun n v hv => g.keep n v (h.keep n v hv),
    fun n v hv => g.keepP n v (h.keepP n v hv)⟩

theorem SrcPar.refl (h : Heap) : SrcPar h h := (Src.refl h).srcPar

theorem SrcPar.name {h h' : Heap} (s : SrcPar h h') (n : Nat) : (h'.node n).name = (h.node n).name :=
  (congrArg Node.name (s.rest n) :)
theorem SrcPar.kind {h h' : Heap} (s : SrcPar h h') (n : Nat) : (h'.node n).kind = (h.node n).kind :=
  (congrArg Node.kind (s.rest n) :)
theorem SrcPar.objType {h h' : Heap} (s : SrcPar h h') (n : Nat) : (h'.node n).objType = (h.node n).objType :=
  (congrArg Node.objType (s.rest n) :)
theorem SrcPar.attrs {h h' : Heap} (s : SrcPar h h') (n : Nat) : (h'.node n).attrs = (h.node n).attrs :=
  (congrArg Node.attrs (s.rest n) :)
theorem SrcPar.groups {h h' : Heap} (s : SrcPar h h') (n : Nat) : (h'.node n).groups = (h.node n).groups :=
  (congrArg Node.groups (s.rest n) :)
theorem SrcPar.datasets {h h' : Heap} (s : SrcPar h h') (n : Nat) : (h'.node n).datasets = (h.node n).datasets :=
  (congrArg Node.datasets (s.rest n) :)
theorem SrcPar.links {h h' : Heap} (s : SrcPar h h') (n : Nat) : (h'.node n).links = (h.node n).links :=
  (congrArg Node.links (s.rest n) :)
theorem SrcPar.sub {h h' : Heap} (s : SrcPar h h') (n : Nat) (k : Kind) : (h'.node n).sub k = (h.node n).sub k := by
  cases k <;> simp only [Node.sub, s.groups, s.datasets, s.links]

theorem HInv.srcPar {h h' : Heap} (i : HInv h) (s : SrcPar h h') : HInv h' := by
  refine ⟨fun n => ⟨?_⟩, ?_⟩
  · intro name k
    rw [s.objType, (i.g n).type]
    cases k <;> simp only [names, s.groups, s.datasets, s.links, s.attrs]
  · intro n k name c hc
    rw [s.sub] at hc
    rw [s.size, s.kind, s.name]
    exact i.sub n k name c hc

theorem setParent_srcPar (h : Heap) (n p : Nat) : SrcPar h (setParent h n p).1 := by
  unfold setParent
  split
  · exact SrcPar.refl h
  · rename_i hn
    have hn' : (h.node n).parent = none := by simpa using hn
    have h1 : SrcPar h (h.upd n fun b => { b with parent := some p }) := by
      refine ⟨rfl, ?_, ?_, ?_⟩
      · intro m; simp only [upd_node]; split
        · rename_i e; subst e; rfl
        · rfl
      · intro m v hv; simp only [upd_node]; split
        · rename_i e; subst e; exact hv
        · exact hv
      · intro m v hv; simp only [upd_node]; split
        · rename_i e; subst e; rw [hn'] at hv; simp at hv
        · exact hv
    simp only
    split
    · exact h1.trans (setSource_src _ _ _ _).srcPar
    · exact h1

/-- cases of `setBuilder` -/
theorem setBuilder_cases (h : Heap) (n c : Nat) :
    (setBuilder h n c = (h, .error .valueError) ∧ objTypeOk (h.node n) (h.node c).name (h.node c).kind = false) ∨
    (setBuilder h n c = (h, .ok ()) ∧ objTypeOk (h.node n) (h.node c).name (h.node c).kind = true ∧
      ∃ c', getItem h n (h.node c).name = .ok (.builder c') ∧ eqB h.size h c' c = true) ∨
    (objTypeOk (h.node n) (h.node c).name (h.node c).kind = true ∧ SrcPar (stored h n c) (setBuilder h n c).1 ∧
      (setBuilder h n c).2 ≠ .error .valueError) := by
  have nv : ∀ (k : Nat) (h : Heap) (n : Nat) (s : Option String), (setSource k h n s).2 ≠ .error .valueError := by
    intro k
    induction k with
    | zero => intro h n s; simp [setSource]
    | succ k ih =>
      intro h n s
      simp only [setSource]
      split
      · simp
      · have : ∀ (cs : List Nat) (h : Heap), (propagate (fun h c => setSource k h c s) h cs).2 ≠ .error .valueError := by
          intro cs
          induction cs with
          | nil => intro h; simp [propagate]
          | cons c cs ihc =>
            intro h
            simp only [propagate]
            split
            · have := ih h c s
              cases hc : setSource k h c s with
              | mk h2 r =>
                rw [hc] at this
                cases r with
                | error e => exact this
                | ok u => exact ihc h2
            · exact ihc h
        exact this _ _
  unfold setBuilder
  simp only
  by_cases hok : objTypeOk (h.node n) (h.node c).name (h.node c).kind = true
  · simp only [hok, if_true]
    cases hsame : alreadyThere h n c with
    | true =>
      right; left
      refine ⟨by simp, trivial, ?_⟩
      unfold alreadyThere at hsame
      cases hg : getItem h n (h.node c).name with
      | error e => simp [hg] at hsame
      | ok it =>
        cases it with
        | attr v => simp [hg] at hsame
        | builder c' => rw [hg] at hsame; exact ⟨c', rfl, hsame⟩
    | false =>
      right; right
      refine ⟨trivial, ?_, ?_⟩
      · simp only [Bool.false_eq_true, if_false]
        split
        · exact setParent_srcPar _ _ _
        · exact SrcPar.refl _
      · simp only [Bool.false_eq_true, if_false]
        split
        · unfold setParent
          split
          · simp
          · simp only
            split
            · exact nv _ _ _ _
            · simp
        · simp
  · left
    have : objTypeOk (h.node n) (h.node c).name (h.node c).kind = false := by simpa using hok
    simp [this]

theorem setSub_fields (b : Node) (k : Kind) (name : Key) (c : Nat) :
    (b.setSub k name c).name = b.name ∧ (b.setSub k name c).kind = b.kind ∧ (b.setSub k name c).attrs = b.attrs ∧
      (b.setSub k name c).parent = b.parent ∧ (b.setSub k name c).source = b.source := by
  cases k <;> simp [Node.setSub]

theorem setSub_sub (b : Node) (k k' : Kind) (name : Key) (c : Nat) (hk : k ≠ .attr) :
    (b.setSub k name c).sub k' = if k' = k then (b.sub k').set name c else b.sub k' := by
  cases k <;> cases k' <;> simp_all [Node.setSub, Node.sub]

theorem names_sub (b : Node) (k : Kind) (hk : k ≠ .attr) : names b k = Dict.keys (b.sub k) := by
  cases k <;> simp_all [names, Node.sub]

theorem stored_node (h : Heap) (n c m : Nat) : (stored h n c).node m =
    if m = n then { (h.node n).setSub (h.node c).kind (h.node c).name c with
      objType := (h.node n).objType.set (h.node c).name (h.node c).kind } else h.node m := rfl

theorem stored_inv {h : Heap} (i : HInv h) {n c : Nat} (hc : c < h.size) (hk : (h.node c).kind ≠ .attr)
    (hok : objTypeOk (h.node n) (h.node c).name (h.node c).kind = true) : HInv (stored h n c) := by
  have hold : ∀ k', Dict.get? (h.node n).objType (h.node c).name = some k' → k' = (h.node c).kind := by
    intro k' hk'
    simp only [objTypeOk, hk'] at hok
    simpa using hok
  have hnodekind : ∀ m, ((stored h n c).node m).kind = (h.node m).kind := by
    intro m; rw [stored_node]; split
    · rename_i e; subst e; exact (setSub_fields _ _ _ _).2.1
    · rfl
  have hnodename : ∀ m, ((stored h n c).node m).name = (h.node m).name := by
    intro m; rw [stored_node]; split
    · rename_i e; subst e; exact (setSub_fields _ _ _ _).1
    · rfl
  refine ⟨fun m => ⟨?_⟩, ?_⟩
  · intro name k
    rw [stored_node]
    split
    · simp only [Dict.get?_set]
      have hnames : names { (h.node n).setSub (h.node c).kind (h.node c).name c with
          objType := (h.node n).objType.set (h.node c).name (h.node c).kind } k =
          if k = (h.node c).kind then Dict.keys (((h.node n).sub k).set (h.node c).name c) else names (h.node n) k := by
        generalize (h.node c).kind = kc at *
        cases kc <;> cases k <;> simp_all [names, Node.setSub, Node.sub]
      rw [hnames]
      by_cases hname : name = (h.node c).name
      · subst hname
        rw [if_pos rfl]
        constructor
        · intro e
          simp only [Option.some.injEq] at e
          subst e
          rw [if_pos rfl, Dict.mem_keys_set]; exact .inl rfl
        · intro e
          by_cases hk2 : k = (h.node c).kind
          · rw [hk2]
          · rw [if_neg hk2] at e
            exact absurd (hold k (((i.g n).type _ k).2 e)) hk2
      · rw [if_neg hname, (i.g n).type]
        by_cases hk2 : k = (h.node c).kind
        · rw [if_pos hk2, Dict.mem_keys_set, names_sub _ _ (by rw [hk2]; exact hk)]
          constructor
          · exact .inr
          · rintro (e | e)
            · exact absurd e hname
            · exact e
        · rw [if_neg hk2]
    · exact (i.g m).type name k
  · intro m k name d hd
    rw [hnodekind, hnodename]
    show d < h.size ∧ _
    rw [stored_node] at hd
    split at hd
    · have e : ({ (h.node n).setSub (h.node c).kind (h.node c).name c with
          objType := (h.node n).objType.set (h.node c).name (h.node c).kind } : Node).sub k =
          ((h.node n).setSub (h.node c).kind (h.node c).name c).sub k := by cases k <;> rfl
      rw [e, setSub_sub _ _ _ _ _ hk] at hd
      split at hd
      · rename_i ek
        rw [Dict.get?_set] at hd
        split at hd
        · rename_i en
          simp only [Option.some.injEq] at hd
          subst hd
          exact ⟨hc, ek.symm, en.symm⟩
        · exact i.sub n k name d hd
      · exact i.sub n k name d hd
    · exact i.sub m k name d hd

theorem new_inv {h : Heap} (i : HInv h) (name : Key) (kind : Kind) (parent : Option Nat) (source : Option String)
    (content : Nat) : HInv (h.new name kind parent source content) := by
  refine ⟨fun m => ⟨?_⟩, ?_⟩
  · intro nm k
    simp only [Heap.new]
    split
    · cases k <;> simp [names, Dict.get?, Dict.keys]
    · exact (i.g m).type nm k
  · intro m k nm d hd
    simp only [Heap.new] at hd ⊢
    split at hd
    · cases k <;> simp [Node.sub, Dict.get?] at hd
    · obtain ⟨a, b, c⟩ := i.sub m k nm d hd
      rw [if_neg (by omega)]
      exact ⟨by omega, b, c⟩

theorem setAttribute_cases (h : Heap) (n : Nat) (name : Key) (v : Nat) :
    (setAttribute h n name v = (h, .error .valueError) ∧ objTypeOk (h.node n) name .attr = false) ∨
    (setAttribute h n name v =
      (h.upd n fun b => { b with attrs := b.attrs.set name v, objType := b.objType.set name .attr }, .ok ()) ∧
      objTypeOk (h.node n) name .attr = true) := by
  unfold setAttribute
  split
  · rename_i h1; exact .inr ⟨rfl, h1⟩
  · rename_i h1; exact .inl ⟨rfl, by simpa using h1⟩

theorem setAttribute_inv {h : Heap} (i : HInv h) (n : Nat) (name : Key) (v : Nat) : HInv (setAttribute h n name v).1 := by
  rcases setAttribute_cases h n name v with ⟨e, -⟩ | ⟨e, hok⟩
  · rw [e]; exact i
  · rw [e]
    have hold : ∀ k', Dict.get? (h.node n).objType name = some k' → k' = .attr := by
      intro k' hk'
      simp only [objTypeOk, hk'] at hok
      simpa using hok
    refine ⟨fun m => ⟨?_⟩, ?_⟩
    · intro nm k
      simp only [upd_node]
      split
      · simp only [Dict.get?_set]
        have hnames : names
            { h.node n with attrs := (h.node n).attrs.set name v, objType := (h.node n).objType.set name Kind.attr } k =
            if k = .attr then Dict.keys ((h.node n).attrs.set name v) else names (h.node n) k := by
          cases k <;> simp [names]
        rw [hnames]
        by_cases hn : nm = name
        · subst hn
          rw [if_pos rfl]
          constructor
          · intro e; simp only [Option.some.injEq] at e; subst e
            rw [if_pos rfl, Dict.mem_keys_set]; exact .inl rfl
          · intro e
            by_cases hk : k = .attr
            · rw [hk]
            · rw [if_neg hk] at e
              exact absurd (hold k (((i.g n).type _ k).2 e)) hk
        · rw [if_neg hn, (i.g n).type]
          by_cases hk : k = .attr
          · subst hk
            rw [if_pos rfl, Dict.mem_keys_set]
            constructor
            · exact .inr
            · rintro (e | e)
              · exact absurd e hn
              · exact e
          · rw [if_neg hk]
      · exact (i.g m).type nm k
    · intro m k nm d hd
      have hd' : Dict.get? ((h.node m).sub k) nm = some d := by
        simp only [upd_node] at hd
        split at hd
        · rename_i e; subst e
          cases k <;> exact hd
        · exact hd
      obtain ⟨a, b, c⟩ := i.sub m k nm d hd'
      refine ⟨a, ?_⟩
      simp only [upd_node]
      split
      · rename_i e; subst e; exact ⟨b, c⟩
      · exact ⟨b, c⟩

theorem step_inv {h : Heap} (i : HInv h) (op : Op) : HInv (step h op).1 := by
  unfold step
  split
  · exact i
  · rename_i hargs
    simp only [List.any_eq_true, decide_eq_true_eq, not_exists, not_and, not_le] at hargs
    cases op with
    | new name kind parent source content =>
      simp only
      split
      · exact i
      · exact new_inv i _ _ _ _ _
    | setAttribute n name v =>
      simp only
      split
      · exact setAttribute_inv i n name v
      · exact i
    | setBuilder n c =>
      simp only
      split
      · rename_i hk
        rcases setBuilder_cases h n c with ⟨e, -⟩ | ⟨e, -⟩ | ⟨hok, hs, -⟩
        · rw [e]; exact i
        · rw [e]; exact i
        · exact (stored_inv i (hargs c (by simp [Op.args])) hk.2 hok).srcPar hs
      · exact i
    | setSource n s => exact i.src (setSource_src _ _ _ _)
    | setParent n p => exact i.srcPar (setParent_srcPar _ _ _)

theorem run_inv : ∀ (ops : List Op) (h : Heap), HInv h → HInv (run h ops) := by
  intro ops
  induction ops with
  | nil => intro h i; exact i
  | cons op ops ih => intro h i; exact ih _ (step_inv i op)

/-- sources and parents present stay, for existing builders -/
theorem step_keep (h : Heap) (op : Op) (n : Nat) (hn : n < h.size) :
    n < (step h op).1.size ∧ (∀ v, (h.node n).source = some v → ((step h op).1.node n).source = some v) ∧
      (∀ v, (h.node n).parent = some v → ((step h op).1.node n).parent = some v) := by
  have hsp : ∀ h' : Heap, SrcPar h h' → n < h'.size ∧ (∀ v, (h.node n).source = some v → (h'.node n).source = some v) ∧
      (∀ v, (h.node n).parent = some v → (h'.node n).parent = some v) :=
    fun h' s => ⟨by rw [s.size]; exact hn, s.keep n, s.keepP n⟩
  unfold step
  split
  · exact hsp h (SrcPar.refl h)
  · cases op with
    | new name kind parent source content =>
      simp only
      split
      · exact hsp h (SrcPar.refl h)
      · simp only [Heap.new]
        rw [if_neg (by omega)]
        exact ⟨by omega, fun v h => h, fun v h => h⟩
    | setAttribute m name v =>
      simp only
      split
      · rcases setAttribute_cases h m name v with ⟨e, -⟩ | ⟨e, -⟩
        · rw [e]; exact hsp h (SrcPar.refl h)
        · rw [e]
          refine ⟨hn, ?_⟩
          simp only [upd_node]
          split
          · rename_i e; subst e; exact ⟨fun v h => h, fun v h => h⟩
          · exact ⟨fun v h => h, fun v h => h⟩
      · exact hsp h (SrcPar.refl h)
    | setBuilder m c =>
      simp only
      split
      · rcases setBuilder_cases h m c with ⟨e, -⟩ | ⟨e, -⟩ | ⟨-, hs, -⟩
        · rw [e]; exact hsp h (SrcPar.refl h)
        · rw [e]; exact hsp h (SrcPar.refl h)
        · have e1 : ((stored h m c).node n).source = (h.node n).source ∧ ((stored h m c).node n).parent = (h.node n).parent := by
            rw [stored_node]
            split
            · rename_i e; subst e
              exact ⟨(setSub_fields _ _ _ _).2.2.2.2, (setSub_fields _ _ _ _).2.2.2.1⟩
            · exact ⟨rfl, rfl⟩
          exact ⟨by rw [hs.size]; exact hn, fun v hv => hs.keep n v (by rw [e1.1]; exact hv),
            fun v hv => hs.keepP n v (by rw [e1.2]; exact hv)⟩
      · exact hsp h (SrcPar.refl h)
    | setSource m s => exact hsp _ (setSource_src _ _ _ _).srcPar
    | setParent m p => exact hsp _ (setParent_srcPar _ _ _)

/-- path components that normalisation keeps -/
def plainPart (s : String) : Prop := s ≠ "" ∧ s ≠ "." ∧ s ≠ ".."

theorem normLoop_plain (abs : Bool) : ∀ (p new : Key), (∀ a ∈ p, plainPart a) → normLoop abs p new = new.reverse ++ p := by
  intro p
  induction p with
  | nil => intro new _; simp [normLoop]
  | cons a p ih =>
    intro new h
    obtain ⟨h1, h2, h3⟩ := h a (by simp)
    simp only [normLoop]
    rw [if_neg (by simp [h1, h2]), if_pos (by simp [h3]), ih _ (fun b hb => h b (by simp [hb]))]
    simp

theorem normpath_plain (p : Key) (h : ∀ a ∈ p, plainPart a) (hne : p ≠ []) : normpath p = p := by
  unfold normpath
  cases p with
  | nil => exact absurd rfl hne
  | cons a p =>
    have ha := h a (by simp)
    rw [if_neg (by intro e; simp only [List.cons.injEq] at e; exact ha.1 e.1)]
    have hi : initialSlashes (a :: p) = 0 := by
      unfold initialSlashes
      split
      · rename_i e; simp only [List.cons.injEq] at e; exact absurd e.1 ha.1
      · rename_i e; simp only [List.cons.injEq] at e; exact absurd e.1 ha.1
      · rfl
    rw [if_pos hi, normLoop_plain _ _ _ h]
    simp

theorem normpath_single (a : String) (h : a ≠ "") : normpath [a] = [a] := by
  unfold normpath
  rw [if_neg (by simpa using h)]
  by_cases h1 : a = "."
  · subst h1; simp [normLoop, initialSlashes]
  · by_cases h2 : a = ".."
    · subst h2; simp [normLoop, initialSlashes]
    · simp [normLoop, h, h1, initialSlashes]

/-- lookup of a single name -/
theorem getRec_single {h : Heap} (i : HInv h) (n c : Nat) (a : String) :
    getRec h n [a] = .ok (.builder c) ↔ ∃ k, k ≠ .attr ∧ Dict.get? ((h.node n).sub k) [a] = some c := by
  simp only [getRec]
  constructor
  · intro hg
    cases ht : Dict.get? (h.node n).objType [a] with
    | none => simp [ht] at hg
    | some k =>
      rw [ht] at hg
      cases k with
      | attr =>
        simp only at hg
        cases hv : Dict.get? (h.node n).attrs [a] <;> simp [hv] at hg
      | group =>
        simp only at hg
        cases hv : Dict.get? ((h.node n).sub .group) [a] with
        | none => simp [hv] at hg
        | some d => simp [hv] at hg; exact ⟨.group, by simp, by rw [hv, hg]⟩
      | dataset =>
        simp only at hg
        cases hv : Dict.get? ((h.node n).sub .dataset) [a] with
        | none => simp [hv] at hg
        | some d => simp [hv] at hg; exact ⟨.dataset, by simp, by rw [hv, hg]⟩
      | link =>
        simp only at hg
        cases hv : Dict.get? ((h.node n).sub .link) [a] with
        | none => simp [hv] at hg
        | some d => simp [hv] at hg; exact ⟨.link, by simp, by rw [hv, hg]⟩
  · rintro ⟨k, hk, hv⟩
    have hm : [a] ∈ names (h.node n) k := by
      rw [names_sub _ _ hk, ← Dict.has_iff]
      simp [Dict.has, hv]
    have ht := ((i.g n).type [a] k).2 hm
    rw [ht]
    cases k with
    | attr => exact absurd rfl hk
    | group => simp only [hv]
    | dataset => simp only [hv]
    | link => simp only [hv]

theorem getRec_attr {h : Heap} (i : HInv h) (n v : Nat) (a : String) :
    getRec h n [a] = .ok (.attr v) ↔ Dict.get? (h.node n).attrs [a] = some v := by
  simp only [getRec]
  constructor
  · intro hg
    cases ht : Dict.get? (h.node n).objType [a] with
    | none => simp [ht] at hg
    | some k =>
      rw [ht] at hg
      cases k with
      | attr =>
        simp only at hg
        cases hv : Dict.get? (h.node n).attrs [a] with
        | none => simp [hv] at hg
        | some d => simp [hv] at hg; rw [hg]
      | group => simp only at hg; cases hv : Dict.get? ((h.node n).sub .group) [a] <;> simp [hv] at hg
      | dataset => simp only at hg; cases hv : Dict.get? ((h.node n).sub .dataset) [a] <;> simp [hv] at hg
      | link => simp only at hg; cases hv : Dict.get? ((h.node n).sub .link) [a] <;> simp [hv] at hg
  · intro hv
    have hm : [a] ∈ names (h.node n) .attr := by
      simp only [names]; rw [← Dict.has_iff]; simp [Dict.has, hv]
    rw [((i.g n).type [a] .attr).2 hm]
    simp only [hv]

/-! ## setting a source returns -/

/-- sub-builders exist -/
def KidsLt (h : Heap) : Prop := ∀ n, ∀ c ∈ kids (h.node n), c < h.size

theorem kids_empty : KidsLt Heap.empty := by
  intro n c hc; simp [kids, Heap.empty, Dict.values] at hc

theorem KidsLt.srcPar {h h' : Heap} (i : KidsLt h) (s : SrcPar h h') : KidsLt h' := by
  intro n c hc
  rw [s.size]
  refine i n c ?_
  unfold kids at hc ⊢
  rwa [s.groups, s.datasets, s.links] at hc

theorem mem_values_set {d : Dict Key Nat} {k : Key} {v x : Nat} (h : x ∈ (d.set k v).values) : x = v ∨ x ∈ d.values := by
  simp only [Dict.values, List.mem_map] at h ⊢
  obtain ⟨p, hp, rfl⟩ := h
  rcases Dict.set_mem hp with e | e
  · left; rw [e]
  · exact .inr ⟨p, e, rfl⟩

theorem step_kids {h : Heap} (i : KidsLt h) (op : Op) : KidsLt (step h op).1 := by
  unfold step
  split
  · exact i
  · rename_i hargs
    simp only [List.any_eq_true, decide_eq_true_eq, not_exists, not_and, not_le] at hargs
    cases op with
    | new name kind parent source content =>
      simp only
      split
      · exact i
      · intro n c hc
        simp only [Heap.new] at hc ⊢
        split at hc
        · simp [kids, Dict.values] at hc
        · have := i n c hc; omega
    | setAttribute m name v =>
      simp only
      split
      · rcases setAttribute_cases h m name v with ⟨e, -⟩ | ⟨e, -⟩
        · rw [e]; exact i
        · rw [e]
          intro n c hc
          simp only [upd_node] at hc
          split at hc
          · exact i m c hc
          · exact i n c hc
      · exact i
    | setSource m s => exact i.srcPar (setSource_src _ _ _ _).srcPar
    | setParent m p => exact i.srcPar (setParent_srcPar _ _ _)
    | setBuilder m d =>
      simp only
      split
      · rcases setBuilder_cases h m d with ⟨e, -⟩ | ⟨e, -⟩ | ⟨-, hs, -⟩
        · rw [e]; exact i
        · rw [e]; exact i
        · refine KidsLt.srcPar ?_ hs
          have hd : d < h.size := hargs d (by simp [Op.args])
          intro n c hc
          rw [stored_node] at hc
          show c < h.size
          split at hc
          · have old := i m c
            simp only [kids, List.mem_append] at hc old
            cases hk : (h.node d).kind <;> simp only [hk, Node.setSub] at hc
            · rcases hc with (hc | hc) | hc
              · rcases mem_values_set hc with e | e
                · rw [e]; exact hd
                · exact old (.inl (.inl e))
              · exact old (.inl (.inr hc))
              · exact old (.inr hc)
            · rcases hc with (hc | hc) | hc
              · exact old (.inl (.inl hc))
              · rcases mem_values_set hc with e | e
                · rw [e]; exact hd
                · exact old (.inl (.inr e))
              · exact old (.inr hc)
            · rcases hc with (hc | hc) | hc
              · exact old (.inl (.inl hc))
              · exact old (.inl (.inr hc))
              · rcases mem_values_set hc with e | e
                · rw [e]; exact hd
                · exact old (.inr e)
            · exact old hc
          · exact i n c hc
      · exact i

theorem run_kids : ∀ (ops : List Op) (h : Heap), KidsLt h → KidsLt (run h ops) := by
  intro ops
  induction ops with
  | nil => intro h i; exact i
  | cons op ops ih => intro h i; exact ih _ (step_kids i op)

/-- a call that fails has met as many builders without a source as the recursion is deep -/
theorem setSource_deep (s : String) : ∀ (k : Nat) (h h' : Heap) (n : Nat) (e : Err), KidsLt h → n < h.size →
    (h.node n).source = none → setSource k h n (some s) = (h', .error e) →
    ∃ l : List Nat, l.length = k + 1 ∧ l.Nodup ∧ ∀ m ∈ l, m < h.size ∧ (h.node m).source = none := by
  intro k
  induction k with
  | zero => intro h h' n e _ hn hs _; exact ⟨[n], rfl, by simp, by simp [hn, hs]⟩
  | succ k ih =>
    intro h h' n e hk hn hs he
    simp only [setSource] at he
    rw [if_neg (by simp [hs])] at he
    have hsrc := src_set (some s) hs
    set h1 := h.upd n fun b => { b with source := some s } with hh1
    have loop : ∀ (cs : List Nat) (h2 : Heap), Src h1 h2 → (∀ c ∈ cs, c < h.size) →
        propagate (fun h c => setSource k h c (some s)) h2 cs = (h', .error e) →
        ∃ l : List Nat, l.length = k + 1 ∧ l.Nodup ∧ ∀ m ∈ l, m < h1.size ∧ (h1.node m).source = none := by
      intro cs
      induction cs with
      | nil => intro h2 _ _ hp; simp [propagate] at hp
      | cons c cs ihc =>
        intro h2 s2 hlt hp
        simp only [propagate] at hp
        split at hp
        · rename_i hcn
          cases hc : setSource k h2 c (some s) with
          | mk h3 r =>
            rw [hc] at hp
            cases r with
            | error e2 =>
              obtain ⟨l, h4, h5, h6⟩ := ih h2 h3 c e2 ((hk.srcPar hsrc.srcPar).srcPar s2.srcPar)
                (by rw [s2.size, hsrc.size]; exact hlt c (by simp)) hcn hc
              refine ⟨l, h4, h5, fun m hm => ⟨by rw [← s2.size]; exact (h6 m hm).1, ?_⟩⟩
              cases hv : (h1.node m).source with
              | none => rfl
              | some v => have := s2.keep m v hv; rw [(h6 m hm).2] at this; simp at this
            | ok u =>
              refine ihc h3 (s2.trans ?_) (fun c hc => hlt c (by simp [hc])) hp
              have := setSource_src k h2 c (some s)
              rwa [hc] at this
        · exact ihc h2 s2 (fun c hc => hlt c (by simp [hc])) hp
    obtain ⟨l, h4, h5, h6⟩ := loop _ h1 (Src.refl h1) (fun c hc => hk n c hc) he
    refine ⟨n :: l, by simp [h4], ?_, ?_⟩
    · rw [List.nodup_cons]
      refine ⟨fun hm => ?_, h5⟩
      have := (h6 n hm).2
      simp [hh1, upd_node] at this
    · intro m hm
      rcases List.mem_cons.1 hm with rfl | hm
      · exact ⟨hn, hs⟩
      · refine ⟨(h6 m hm).1, ?_⟩
        cases hv : (h.node m).source with
        | none => rfl
        | some v => have := hsrc.keep m v hv; rw [(h6 m hm).2] at this; simp at this

theorem setSource_returns {h : Heap} (i : KidsLt h) (n : Nat) (s : String) (hn : n < h.size) (hs : (h.node n).source = none) :
    (setSource h.size h n (some s)).2 = .ok () := by
  cases hc : setSource h.size h n (some s) with
  | mk h' r =>
    cases r with
    | ok u => rfl
    | error e =>
      obtain ⟨l, h1, h2, h3⟩ := setSource_deep s h.size h h' n e i hn hs hc
      have hsub : l ⊆ List.range h.size := fun m hm => List.mem_range.2 (h3 m hm).1
      have := (h2.subperm hsub).length_le
      simp [h1] at this

end Verif.Builders
