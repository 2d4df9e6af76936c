import Verif.Model.Share
import Verif.Lemmas.TypeMap
import Mathlib.Tactic.Tauto

/-! # Lemmas about copies and merges of catalogs and type maps -/

namespace Verif.Share
open Verif Verif.Namespace

/-! ## Dictionaries of addresses -/

section
variable {κ : Type} [DecidableEq κ]

theorem get?_deref (m : Nat → List String) (d : Dict κ Nat) (k : κ) :
    Dict.get? (d.map fun p => (p.1, m p.2)) k = (Dict.get? d k).map m := by
  induction d with
  | nil => rfl
  | cons p d ih =>
    obtain ⟨a, b⟩ := p
    simp only [List.map_cons, Dict.get?]
    split
    · rfl
    · exact ih

theorem deref_congr {m m' : Nat → List String} {d : Dict κ Nat} (h : ∀ r ∈ d.map Prod.snd, m' r = m r) :
    (d.map fun p => (p.1, m' p.2)) = d.map fun p => (p.1, m p.2) := by
  apply List.map_congr_left
  intro p hp
  rw [h p.2 (List.mem_map.2 ⟨p, hp, rfl⟩)]

theorem deref_put {m : Nat → List String} {d : Dict κ Nat} {k : κ} {r : Nat} {v : List String}
    (hn : (d.map Prod.snd).Nodup) (hk : Dict.get? d k = some r) :
    (d.map fun p => (p.1, if p.2 = r then v else m p.2)) = Dict.set (d.map fun p => (p.1, m p.2)) k v := by
  induction d with
  | nil => cases hk
  | cons p d ih =>
    obtain ⟨a, b⟩ := p
    simp only [List.map_cons, List.nodup_cons] at hn
    simp only [Dict.get?] at hk
    simp only [List.map_cons, Dict.set]
    by_cases h : a = k
    · rw [if_pos h] at hk
      cases hk
      rw [if_pos h, if_pos rfl]
      congr 1
      apply List.map_congr_left
      intro p hp
      have : p.2 ≠ r := fun e => hn.1 (List.mem_map.2 ⟨p, hp, e⟩)
      rw [if_neg this]
    · rw [if_neg h] at hk
      rw [if_neg h]
      have : b ≠ r := by
        intro e
        apply hn.1
        rw [e]
        exact List.mem_map.2 ⟨(k, r), Dict.mem_of_get? hk, rfl⟩
      rw [if_neg this, ih hn.2 hk]

theorem deref_set {m : Nat → List String} {d : Dict κ Nat} {k : κ} {r : Nat} (hk : Dict.get? d k = none) :
    ((Dict.set d k r).map fun p => (p.1, m p.2)) = Dict.set (d.map fun p => (p.1, m p.2)) k (m r) := by
  rw [Dict.set_of_not_mem (Dict.get?_eq_none_iff.1 hk), Dict.set_of_not_mem]
  · simp
  · rw [← Dict.get?_eq_none_iff, get?_deref, hk]
    rfl

theorem snd_set {d : Dict κ Nat} {k : κ} {r : Nat} (hk : Dict.get? d k = none) :
    (Dict.set d k r).map Prod.snd = d.map Prod.snd ++ [r] := by
  rw [Dict.set_of_not_mem (Dict.get?_eq_none_iff.1 hk)]
  simp
end

/-! ## One step of one catalog, the others holding the addresses in `S` -/

structure Good (S : Nat → Prop) (h : Heap) (c : CatR) : Prop where
  lt : ∀ r ∈ c.refs, r < h.next
  nodup : c.refs.Nodup
  out : ∀ r, S r → r < h.next

structure Move (S : Nat → Prop) (h : Heap) (c : CatR) (h' : Heap) (c' : CatR) : Prop where
  good : Good S h' c'
  frame : ∀ r, S r → h'.mem r = h.mem r
  inc : ∀ n r, Dict.get? c'.includedSources n = some r → ¬ S r ∨ Dict.get? c.includedSources n = some r
  ld : ∀ s r, Dict.get? c'.loaded s = some r → ¬ S r ∨ Dict.get? c.loaded s = some r
  le : h.next ≤ h'.next

theorem Move.refl {S : Nat → Prop} {h : Heap} {c : CatR} (hg : Good S h c) : Move S h c h c :=
  ⟨hg, fun _ _ => rfl, fun _ _ h => .inr h, fun _ _ h => .inr h, Nat.le_refl _⟩

theorem Move.trans {S : Nat → Prop} {h h1 h2 : Heap} {c c1 c2 : CatR} (a : Move S h c h1 c1) (b : Move S h1 c1 h2 c2) :
    Move S h c h2 c2 where
  good := b.good
  frame := fun r hr => (b.frame r hr).trans (a.frame r hr)
  inc := fun n r h => (b.inc n r h).elim .inl fun h => a.inc n r h
  ld := fun n r h => (b.ld n r h).elim .inl fun h => a.ld n r h
  le := Nat.le_trans a.le b.le

theorem Good.nl {S : Nat → Prop} {h : Heap} {c : CatR} (hg : Good S h c) : (c.loaded.map Prod.snd).Nodup :=
  (List.nodup_append.1 hg.nodup).1

theorem Good.ni {S : Nat → Prop} {h : Heap} {c : CatR} (hg : Good S h c) : (c.includedSources.map Prod.snd).Nodup :=
  (List.nodup_append.1 hg.nodup).2.1

theorem Good.ne {S : Nat → Prop} {h : Heap} {c : CatR} (hg : Good S h c) {a b : Nat} (ha : a ∈ c.loaded.map Prod.snd)
    (hb : b ∈ c.includedSources.map Prod.snd) : a ≠ b :=
  (List.nodup_append.1 hg.nodup).2.2 a ha b hb

theorem Good.ll {S : Nat → Prop} {h : Heap} {c : CatR} (hg : Good S h c) {r : Nat} (hr : r ∈ c.loaded.map Prod.snd) :
    r < h.next := hg.lt r (List.mem_append_left _ hr)

theorem Good.li {S : Nat → Prop} {h : Heap} {c : CatR} (hg : Good S h c) {r : Nat}
    (hr : r ∈ c.includedSources.map Prod.snd) : r < h.next := hg.lt r (List.mem_append_right _ hr)

theorem mem_snd {κ : Type} [DecidableEq κ] {d : Dict κ Nat} {k : κ} {r : Nat} (h : Dict.get? d k = some r) :
    r ∈ d.map Prod.snd := List.mem_map.2 ⟨(k, r), Dict.mem_of_get? h, rfl⟩

theorem alloc_old {h : Heap} {v : List String} {r : Nat} (hr : r < h.next) : (h.alloc v).mem r = h.mem r := by
  unfold Heap.alloc
  simp only
  rw [if_neg (Nat.ne_of_lt hr)]

theorem alloc_new {h : Heap} {v : List String} : (h.alloc v).mem h.next = v := by
  unfold Heap.alloc
  simp

/-- A new entry of `__loaded_specs`. -/
theorem newLoaded {S : Nat → Prop} {h : Heap} {c : CatR} (hg : Good S h c) {k : Option String} {v : List String}
    (hk : Dict.get? c.loaded k = none) :
    Move S h c (h.alloc v) { c with loaded := Dict.set c.loaded k h.next } ∧
    view (h.alloc v) { c with loaded := Dict.set c.loaded k h.next } =
      { view h c with loaded := Dict.set (view h c).loaded k v } := by
  have hrefs : ∀ r, r ∈ CatR.refs { c with loaded := Dict.set c.loaded k h.next } ↔ r ∈ c.refs ∨ r = h.next := by
    intro r
    unfold CatR.refs
    rw [snd_set hk]
    simp only [List.mem_append, List.mem_singleton]
    tauto
  refine ⟨⟨⟨?_, ?_, ?_⟩, ?_, ?_, ?_, ?_⟩, ?_⟩
  · intro r hr
    rcases (hrefs r).1 hr with h1 | h1
    · exact Nat.lt_succ_of_lt (hg.lt r h1)
    · rw [h1]; exact Nat.lt_succ_self _
  · unfold CatR.refs
    rw [snd_set hk]
    rw [List.nodup_append]
    refine ⟨?_, hg.ni, ?_⟩
    · rw [List.nodup_append]
      refine ⟨hg.nl, List.pairwise_singleton .., ?_⟩
      intro a ha b hb
      rw [List.mem_singleton.1 hb]
      exact Nat.ne_of_lt (hg.ll ha)
    · intro a ha b hb
      rcases List.mem_append.1 ha with h1 | h1
      · exact hg.ne h1 hb
      · rw [List.mem_singleton.1 h1]
        exact (Nat.ne_of_lt (hg.li hb)).symm
  · intro r hr
    exact Nat.lt_succ_of_lt (hg.out r hr)
  · intro r hr
    exact alloc_old (hg.out r hr)
  · intro n r hr
    exact .inr hr
  · intro s r hr
    rw [show ({ c with loaded := Dict.set c.loaded k h.next } : CatR).loaded = Dict.set c.loaded k h.next from rfl,
      Dict.get?_set] at hr
    split at hr
    · cases hr
      exact .inl fun hs => Nat.lt_irrefl _ (hg.out _ hs)
    · exact .inr hr
  · exact Nat.le_succ _
  · unfold view
    simp only
    congr 1
    · rw [deref_set hk, alloc_new]
      congr 1
      exact deref_congr fun r hr => alloc_old (hg.ll hr)
    · exact deref_congr fun r hr => alloc_old (hg.li hr)

/-- A new entry of `__included_sources`. -/
theorem newInc {S : Nat → Prop} {h : Heap} {c : CatR} (hg : Good S h c) {k : String} {v : List String}
    (hk : Dict.get? c.includedSources k = none) :
    Move S h c (h.alloc v) { c with includedSources := Dict.set c.includedSources k h.next } ∧
    view (h.alloc v) { c with includedSources := Dict.set c.includedSources k h.next } =
      { view h c with includedSources := Dict.set (view h c).includedSources k v } := by
  have hrefs : ∀ r, r ∈ CatR.refs { c with includedSources := Dict.set c.includedSources k h.next } ↔
      r ∈ c.refs ∨ r = h.next := by
    intro r
    unfold CatR.refs
    rw [snd_set hk]
    simp only [List.mem_append, List.mem_singleton]
    tauto
  refine ⟨⟨⟨?_, ?_, ?_⟩, ?_, ?_, ?_, ?_⟩, ?_⟩
  · intro r hr
    rcases (hrefs r).1 hr with h1 | h1
    · exact Nat.lt_succ_of_lt (hg.lt r h1)
    · rw [h1]; exact Nat.lt_succ_self _
  · unfold CatR.refs
    rw [snd_set hk]
    rw [List.nodup_append]
    refine ⟨hg.nl, ?_, ?_⟩
    · rw [List.nodup_append]
      refine ⟨hg.ni, List.pairwise_singleton .., ?_⟩
      intro a ha b hb
      rw [List.mem_singleton.1 hb]
      exact Nat.ne_of_lt (hg.li ha)
    · intro a ha b hb
      rcases List.mem_append.1 hb with h1 | h1
      · exact hg.ne ha h1
      · rw [List.mem_singleton.1 h1]
        exact Nat.ne_of_lt (hg.ll ha)
  · intro r hr
    exact Nat.lt_succ_of_lt (hg.out r hr)
  · intro r hr
    exact alloc_old (hg.out r hr)
  · intro s r hr
    rw [show ({ c with includedSources := Dict.set c.includedSources k h.next } : CatR).includedSources =
      Dict.set c.includedSources k h.next from rfl, Dict.get?_set] at hr
    split at hr
    · cases hr
      exact .inl fun hs => Nat.lt_irrefl _ (hg.out _ hs)
    · exact .inr hr
  · intro n r hr
    exact .inr hr
  · exact Nat.le_succ _
  · unfold view
    simp only
    congr 1
    · exact deref_congr fun r hr => alloc_old (hg.ll hr)
    · rw [deref_set hk, alloc_new]
      congr 1
      exact deref_congr fun r hr => alloc_old (hg.li hr)

theorem put_move {S : Nat → Prop} {h : Heap} {c : CatR} (hg : Good S h c) {r : Nat} {v : List String}
    (hs : S r → v = h.mem r) : Move S h c (h.put r v) c := by
  refine ⟨⟨hg.lt, hg.nodup, hg.out⟩, ?_, fun _ _ h => .inr h, fun _ _ h => .inr h, Nat.le_refl _⟩
  intro r' hr'
  unfold Heap.put
  simp only
  split
  · rename_i h1
    rw [h1] at hr' ⊢
    exact hs hr'
  · rfl

theorem putLoaded {S : Nat → Prop} {h : Heap} {c : CatR} (hg : Good S h c) {k : Option String} {r : Nat} {v : List String}
    (hk : Dict.get? c.loaded k = some r) :
    view (h.put r v) c = { view h c with loaded := Dict.set (view h c).loaded k v } := by
  unfold view
  simp only
  congr 1
  · exact deref_put hg.nl hk
  · apply deref_congr
    intro r' hr'
    unfold Heap.put
    simp only
    rw [if_neg]
    exact (hg.ne (mem_snd hk) hr').symm

theorem putInc {S : Nat → Prop} {h : Heap} {c : CatR} (hg : Good S h c) {k : String} {r : Nat} {v : List String}
    (hk : Dict.get? c.includedSources k = some r) :
    view (h.put r v) c = { view h c with includedSources := Dict.set (view h c).includedSources k v } := by
  unfold view
  simp only
  congr 1
  · apply deref_congr
    intro r' hr'
    unfold Heap.put
    simp only
    rw [if_neg]
    exact hg.ne hr' (mem_snd hk)
  · exact deref_put hg.ni hk

/-! ## The methods -/

theorem view_loaded (h : Heap) (c : CatR) (k : Option String) :
    Dict.get? (view h c).loaded k = (Dict.get? c.loaded k).map h.mem := get?_deref h.mem c.loaded k

theorem view_inc (h : Heap) (c : CatR) (k : String) :
    Dict.get? (view h c).includedSources k = (Dict.get? c.includedSources k).map h.mem :=
  get?_deref h.mem c.includedSources k

/-- A step of the catalog in the heap does what the step on values does. -/
def Sim {α : Type} (S : Nat → Prop) (h : Heap) (c : CatR) (o : (Heap × CatR) × α) (v : State × α) : Prop :=
  Move S h c o.1.1 o.1.2 ∧ view o.1.1 o.1.2 = v.1 ∧ o.2 = v.2

theorem loadSpecFile_sim {S : Nat → Prop} (rd : Reader) (resolve : Bool) {h : Heap} {c : CatR} (hg : Good S h c)
    (src : String) (k : Cat) (types : Option (List String)) :
    Sim S h c (loadSpecFileR rd resolve h c src k types) (loadSpecFile rd resolve (view h c) src k types) := by
  unfold loadSpecFileR loadSpecFile
  rw [view_loaded]
  cases hl : Dict.get? c.loaded (some src) with
  | some r => exact ⟨Move.refl hg, rfl, rfl⟩
  | none =>
    simp only [Option.map_none]
    cases rd.readSpec src with
    | error x => exact ⟨Move.refl hg, rfl, rfl⟩
    | ok items =>
      simp only
      cases regLoop resolve types src k [] items with
      | error x => exact ⟨Move.refl hg, rfl, rfl⟩
      | ok p =>
        obtain ⟨k', l⟩ := p
        obtain ⟨m, e⟩ := newLoaded (v := l) hg hl
        exact ⟨m, e, rfl⟩

theorem appendSource_sim {S : Nat → Prop} {h : Heap} {c : CatR} (hg : Good S h c) (name src : String)
    (hs : ∀ r, Dict.get? c.includedSources name = some r → ¬ S r) :
    Move S h c (appendSource h c name src).1 (appendSource h c name src).2 ∧
    view (appendSource h c name src).1 (appendSource h c name src).2 =
      { view h c with includedSources := (Dict.set (view h c).includedSources name
          ((Dict.get? (view h c).includedSources name).getD [] ++ [src])) } := by
  unfold appendSource
  rw [view_inc]
  cases hl : Dict.get? c.includedSources name with
  | some r =>
    simp only [Option.map_some, Option.getD_some]
    exact ⟨put_move hg fun h => absurd h (hs r hl), putInc hg hl⟩
  | none =>
    simp only [Option.map_none, Option.getD_none, List.nil_append]
    exact newInc hg hl

theorem schemaLoop_sim {S : Nat → Prop} (rd : Reader) (resolve : Bool) (name : String) (els : List SchemaEl) :
    ∀ {h : Heap} {c : CatR} (_ : Good S h c) (k : Cat) (inc : Included)
      (_ : ∀ r, Dict.get? c.includedSources name = some r → ¬ S r),
    Sim S h c (schemaLoopR rd resolve name h c k inc els) (schemaLoop rd resolve name (view h c) k inc els) := by
  induction els with
  | nil =>
    intro h c hg k inc hs
    exact ⟨Move.refl hg, rfl, rfl⟩
  | cons el els ih =>
    intro h c hg k inc hs
    unfold schemaLoopR schemaLoop
    cases el.source with
    | some src =>
      simp only
      obtain ⟨m, e, o⟩ := loadSpecFile_sim rd resolve hg src k el.types
      rcases h1 : loadSpecFileR rd resolve h c src k el.types with ⟨⟨h', c'⟩, r⟩
      rcases h2 : loadSpecFile rd resolve (view h c) src k el.types with ⟨v', r'⟩
      rw [h1, h2] at e o
      rw [h1] at m
      simp only at m e o
      subst e
      subst o
      cases r with
      | error x => exact ⟨m, rfl, rfl⟩
      | ok k' =>
        have hs' : ∀ r, Dict.get? c'.includedSources name = some r → ¬ S r := fun r hr =>
          (m.inc name r hr).elim id (hs r)
        obtain ⟨m2, e2⟩ := appendSource_sim m.good name src hs'
        obtain ⟨m3, e3, o3⟩ := ih m2.good k' inc fun r hr => (m2.inc name r hr).elim id (hs' r)
        rw [e2] at e3 o3
        exact ⟨(m.trans m2).trans m3, e3, o3⟩
    | none =>
      simp only
      cases el.ns with
      | none => exact ⟨Move.refl hg, rfl, rfl⟩
      | some n =>
        simp only
        rw [show (view h c).namespaces = c.namespaces from rfl]
        cases Dict.get? c.namespaces n with
        | none => exact ⟨Move.refl hg, rfl, rfl⟩
        | some sp =>
          simp only
          cases regUses (registerType sp.cat rd.depth) (el.types.getD sp.cat.specs.keys) k [] with
          | error x => exact ⟨Move.refl hg, rfl, rfl⟩
          | ok p =>
            obtain ⟨k', done⟩ := p
            exact ih hg k' _ hs

theorem namespaces_move {S : Nat → Prop} {h : Heap} {c : CatR} (hg : Good S h c) (ns : Dict String NSpace)
    (is : Dict String (Dict String Included)) : Move S h c h { c with namespaces := ns, includedSpecs := is } :=
  ⟨⟨hg.lt, hg.nodup, hg.out⟩, fun _ _ => rfl, fun _ _ h => .inr h, fun _ _ h => .inr h, Nat.le_refl _⟩

theorem loadNamespace_sim {S : Nat → Prop} (rd : Reader) (resolve : Bool) (d : NSDef) {h : Heap} {c : CatR}
    (hg : Good S h c) (hs : ∀ r, Dict.get? c.includedSources d.name = some r → ¬ S r) :
    Sim S h c (loadNamespaceR rd resolve h c d) (loadNamespace rd resolve (view h c) d) := by
  unfold loadNamespaceR loadNamespace
  rw [show (view h c).namespaces = c.namespaces from rfl]
  split
  · exact ⟨Move.refl hg, rfl, rfl⟩
  · obtain ⟨m, e, o⟩ := schemaLoop_sim rd resolve d.name d.schema hg {} [] hs
    rcases h1 : schemaLoopR rd resolve d.name h c {} [] d.schema with ⟨⟨h', c'⟩, r⟩
    rcases h2 : schemaLoop rd resolve d.name (view h c) {} [] d.schema with ⟨v', r'⟩
    rw [h1, h2] at e o
    rw [h1] at m
    simp only at m e o
    subst e
    subst o
    cases r with
    | error x => exact ⟨m, rfl, rfl⟩
    | ok p =>
      obtain ⟨k, inc⟩ := p
      simp only
      cases d.bad with
      | some x => exact ⟨m, rfl, rfl⟩
      | none => exact ⟨m.trans (namespaces_move m.good _ _), rfl, rfl⟩

theorem loadLoop_sim {S : Nat → Prop} (rd : Reader) (resolve : Bool) (ds : List NSDef) :
    ∀ {h : Heap} {c : CatR} (_ : Good S h c) (ret : Dict String Included)
      (_ : ∀ d ∈ ds, ∀ r, Dict.get? c.includedSources d.name = some r → ¬ S r),
    Sim S h c (loadLoopR rd resolve h c ret ds) (loadLoop rd resolve (view h c) ret ds) := by
  induction ds with
  | nil =>
    intro h c hg ret hs
    exact ⟨Move.refl hg, rfl, rfl⟩
  | cons d ds ih =>
    intro h c hg ret hs
    unfold loadLoopR loadLoop
    obtain ⟨m, e, o⟩ := loadNamespace_sim rd resolve d hg (hs d (List.mem_cons_self ..))
    rcases h1 : loadNamespaceR rd resolve h c d with ⟨⟨h', c'⟩, r⟩
    rcases h2 : loadNamespace rd resolve (view h c) d with ⟨v', r'⟩
    rw [h1, h2] at e o
    rw [h1] at m
    simp only at m e o
    subst e
    subst o
    cases r with
    | error x => exact ⟨m, rfl, rfl⟩
    | ok inc =>
      obtain ⟨m2, e2, o2⟩ := ih m.good (Dict.set ret d.name inc) fun d' hd' r hr =>
        (m.inc d'.name r hr).elim id (hs d' (List.mem_cons_of_mem _ hd') r)
      exact ⟨m.trans m2, e2, o2⟩

theorem load_sim {S : Nat → Prop} (rd : Reader) (resolve : Bool) (path : String) {h : Heap} {c : CatR} (hg : Good S h c)
    (hs : ∀ defs, rd.readNs path = .ok defs → ∀ d ∈ defs, ∀ r, Dict.get? c.includedSources d.name = some r → ¬ S r) :
    Sim S h c (loadR rd resolve h c path) (Namespace.load rd resolve (view h c) path) := by
  unfold loadR Namespace.load
  rw [show (view h c).includedSpecs = c.includedSpecs from rfl, show (view h c).namespaces = c.namespaces from rfl]
  simp only
  cases Dict.get? c.includedSpecs (rd.dir ++ "/" ++ path) with
  | some r => exact ⟨Move.refl hg, rfl, rfl⟩
  | none =>
    simp only
    cases hd : rd.readNs path with
    | error x => exact ⟨Move.refl hg, rfl, rfl⟩
    | ok defs =>
      simp only
      obtain ⟨m, e, o⟩ := loadLoop_sim rd resolve (defs.filter fun d => !Dict.has c.namespaces d.name) hg []
        fun d hm => hs defs hd d (List.mem_filter.1 hm).1
      rcases h1 : loadLoopR rd resolve h c [] (defs.filter fun d => !Dict.has c.namespaces d.name) with ⟨⟨h', c'⟩, r⟩
      rcases h2 : loadLoop rd resolve (view h c) [] (defs.filter fun d => !Dict.has c.namespaces d.name) with ⟨v', r'⟩
      rw [h1, h2] at e o
      rw [h1] at m
      simp only at m e o
      subst e
      subst o
      cases r with
      | error x => exact ⟨m, rfl, rfl⟩
      | ok ret => exact ⟨m.trans (namespaces_move m.good _ _), rfl, rfl⟩

theorem addType_sim {S : Nat → Prop} {h : Heap} {c : CatR} (hg : Good S h c) (src : Option String) (t : String)
    (hs : ∀ r, Dict.get? c.loaded src = some r → t ∈ h.mem r ∨ ¬ S r) :
    Move S h c (addType h c src t).1 (addType h c src t).2 ∧
    view (addType h c src t).1 (addType h c src t).2 =
      { view h c with loaded := (Dict.set (view h c).loaded src
          (if ((Dict.get? (view h c).loaded src).getD []).contains t then (Dict.get? (view h c).loaded src).getD []
           else (Dict.get? (view h c).loaded src).getD [] ++ [t])) } := by
  unfold addType
  rw [view_loaded]
  cases hl : Dict.get? c.loaded src with
  | some r =>
    simp only [Option.map_some, Option.getD_some]
    refine ⟨put_move hg fun hS => ?_, putLoaded hg hl⟩
    rw [if_pos]
    rcases hs r hl with h1 | h1
    · exact List.contains_iff_mem.2 h1
    · exact absurd hS h1
  | none =>
    simp only [Option.map_none, Option.getD_none, List.nil_append]
    exact newLoaded hg hl

theorem addTypes_sim {S : Nat → Prop} (k : Cat) (ts : List String) :
    ∀ {h : Heap} {c : CatR} (_ : Good S h c)
      (_ : ∀ t ∈ ts, ∀ r, Dict.get? c.loaded (Dict.get? k.sources t).join = some r → t ∈ h.mem r ∨ ¬ S r),
    Move S h c (addTypesR k h c ts).1 (addTypesR k h c ts).2 ∧
    view (addTypesR k h c ts).1 (addTypesR k h c ts).2 =
      { view h c with loaded := addTypes k (view h c).loaded ts } := by
  induction ts with
  | nil =>
    intro h c hg hs
    exact ⟨Move.refl hg, rfl⟩
  | cons t ts ih =>
    intro h c hg hs
    unfold addTypesR addTypes
    obtain ⟨m, e⟩ := addType_sim hg (Dict.get? k.sources t).join t (hs t (List.mem_cons_self ..))
    obtain ⟨m2, e2⟩ := ih m.good fun t' ht' r hr => by
      by_cases hS : S r
      · rcases m.ld _ r hr with h1 | h1
        · exact absurd hS h1
        · rw [m.frame r hS]
          exact hs t' (List.mem_cons_of_mem _ ht') r h1
      · exact .inr hS
    refine ⟨m.trans m2, ?_⟩
    rw [e2, e]

/-- Every type of the namespaces that comes from a known source is known already, or the record of the source is not
shared. -/
def TypesOk (S : Nat → Prop) (h : Heap) (c : CatR) (l : List (String × NSpace)) : Prop :=
  ∀ p ∈ l, ∀ t ∈ p.2.cat.specs.keys, ∀ r, Dict.get? c.loaded (Dict.get? p.2.cat.sources t).join = some r →
    t ∈ h.mem r ∨ ¬ S r

theorem TypesOk.move {S : Nat → Prop} {h h' : Heap} {c c' : CatR} {l : List (String × NSpace)} (ho : TypesOk S h c l)
    (m : Move S h c h' c') : TypesOk S h' c' l := by
  intro p hp t ht r hr
  by_cases hS : S r
  · rcases m.ld _ r hr with h1 | h1
    · exact absurd hS h1
    · rw [m.frame r hS]
      exact ho p hp t ht r h1
  · exact .inr hS

theorem addNamespace_sim {S : Nat → Prop} {h : Heap} {c : CatR} (hg : Good S h c) (name : String) (n : NSpace)
    (ho : TypesOk S h c [(name, n)]) :
    Sim S h c (addNamespaceR h c name n) (addNamespace (view h c) name n) := by
  unfold addNamespaceR addNamespace
  rw [show (view h c).namespaces = c.namespaces from rfl]
  split
  · exact ⟨Move.refl hg, rfl, rfl⟩
  · have m := namespaces_move hg (Dict.set c.namespaces name n) c.includedSpecs
    obtain ⟨m2, e2⟩ := addTypes_sim n.cat n.cat.specs.keys m.good
      fun t ht r hr => ho _ (List.mem_singleton.2 rfl) t ht r hr
    exact ⟨m.trans m2, e2, rfl⟩

theorem mergeLoop_sim {S : Nat → Prop} (l : List (String × NSpace)) :
    ∀ {h : Heap} {c : CatR} (_ : Good S h c) (_ : TypesOk S h c l),
    Sim S h c (mergeLoopR h c l) (mergeLoop (view h c) l) := by
  induction l with
  | nil =>
    intro h c hg ho
    exact ⟨Move.refl hg, rfl, rfl⟩
  | cons p l ih =>
    intro h c hg ho
    obtain ⟨name, n⟩ := p
    unfold mergeLoopR mergeLoop
    obtain ⟨m, e, o⟩ := addNamespace_sim hg name n fun q hq => ho q (by
      rw [List.mem_singleton.1 hq]; exact List.mem_cons_self ..)
    rcases h1 : addNamespaceR h c name n with ⟨⟨h', c'⟩, r⟩
    rcases h2 : addNamespace (view h c) name n with ⟨v', r'⟩
    rw [h1, h2] at e o
    rw [h1] at m
    simp only at m e o
    subst e
    subst o
    cases r with
    | error x => exact ⟨m, rfl, rfl⟩
    | ok u =>
      obtain ⟨m2, e2, o2⟩ := ih m.good (TypesOk.move (fun q hq => ho q (List.mem_cons_of_mem _ hq)) m)
      exact ⟨m.trans m2, e2, o2⟩

/-! ## Programs -/

/-- The addresses held by the catalogs other than `i`. -/
def others (w : World) (i : Nat) : Nat → Prop := fun r => ∃ j c, j ≠ i ∧ w.cats[j]? = some c ∧ r ∈ c.refs

/-- All addresses are in use, and no catalog has the same address twice. -/
structure Inv (w : World) : Prop where
  lt : ∀ (j : Nat) (c : CatR), w.cats[j]? = some c → ∀ r ∈ c.refs, r < w.heap.next
  nodup : ∀ (j : Nat) (c : CatR), w.cats[j]? = some c → c.refs.Nodup

theorem Inv.good {w : World} (hi : Inv w) {i : Nat} {c : CatR} (hc : w.cats[i]? = some c) :
    Good (others w i) w.heap c :=
  ⟨hi.lt i c hc, hi.nodup i c hc, fun r ⟨j, d, _, hd, hr⟩ => hi.lt j d hd r hr⟩

theorem views_get (w : World) (i : Nat) : w.views[i]? = (w.cats[i]?).map (view w.heap) := by
  unfold World.views
  rw [List.getElem?_map]

theorem view_frame {h h' : Heap} {c : CatR} (hf : ∀ r ∈ c.refs, h'.mem r = h.mem r) : view h' c = view h c := by
  unfold view
  congr 1
  · exact deref_congr fun r hr => hf r (List.mem_append_left _ hr)
  · exact deref_congr fun r hr => hf r (List.mem_append_right _ hr)

theorem put_sim {w : World} {i : Nat} {c : CatR} (hc : w.cats[i]? = some c) (hi : Inv w) {h' : Heap} {c' : CatR}
    (m : Move (others w i) w.heap c h' c') :
    Inv (w.put i (h', c')) ∧ (w.put i (h', c')).views = w.views.set i (view h' c') := by
  have hlt : i < w.cats.length := (List.getElem?_eq_some_iff.1 hc).1
  have hget : ∀ j, (w.cats.set i c')[j]? = if j = i then some c' else w.cats[j]? := by
    intro j
    rw [List.getElem?_set]
    by_cases h : i = j
    · subst h; simp [hlt]
    · rw [if_neg h, if_neg (fun e => h e.symm)]
  refine ⟨⟨?_, ?_⟩, ?_⟩
  · intro j d hd r hr
    change (w.cats.set i c')[j]? = some d at hd
    rw [hget] at hd
    split at hd
    · cases hd; exact m.good.lt r hr
    · exact Nat.lt_of_lt_of_le (hi.lt j d hd r hr) m.le
  · intro j d hd
    change (w.cats.set i c')[j]? = some d at hd
    rw [hget] at hd
    split at hd
    · cases hd; exact m.good.nodup
    · exact hi.nodup j d hd
  · apply List.ext_getElem?
    intro j
    rw [views_get]
    change ((w.cats.set i c')[j]?).map (view h') = _
    rw [hget, List.getElem?_set, views_get]
    by_cases h : j = i
    · subst h
      rw [if_pos rfl, if_pos rfl, if_pos (by unfold World.views; simpa using hlt)]
      rfl
    · rw [if_neg h, if_neg (fun e => h e.symm)]
      cases hd : w.cats[j]? with
      | none => rfl
      | some d =>
        simp only [Option.map_some]
        rw [view_frame fun r hr => m.frame r ⟨j, d, h, hd, hr⟩]

/-- A call that writes into no object another catalog shares: it does not load a namespace for which this catalog holds
a list shared with another (left by a load that failed before a copy was made), and the namespaces it adds have no new
types for a source whose record is shared. -/
def Safe (w : World) : Op → Prop
  | .new => True
  | .copy _ => True
  | .load i rd _ path => ∀ c, w.cats[i]? = some c → ∀ defs, rd.readNs path = .ok defs → ∀ d ∈ defs, ∀ r,
      Dict.get? c.includedSources d.name = some r → ¬ others w i r
  | .add i name n => ∀ c, w.cats[i]? = some c → TypesOk (others w i) w.heap c [(name, n)]
  | .merge i j => ∀ c d, w.cats[i]? = some c → w.cats[j]? = some d → TypesOk (others w i) w.heap c d.namespaces

theorem step_sim {w : World} (hi : Inv w) (o : Op) (hs : Safe w o) :
    Inv (step w o).1 ∧ (step w o).1.views = (stepV w.views o).1 ∧ (step w o).2 = (stepV w.views o).2 := by
  cases o with
  | new =>
    unfold step stepV
    refine ⟨⟨?_, ?_⟩, ?_, rfl⟩
    · intro j c hc r hr
      rw [List.getElem?_append] at hc
      split at hc
      · exact hi.lt j c hc r hr
      · have := List.mem_of_getElem? hc
        rw [List.mem_singleton] at this
        subst this
        cases hr
    · intro j c hc
      rw [List.getElem?_append] at hc
      split at hc
      · exact hi.nodup j c hc
      · have := List.mem_of_getElem? hc
        rw [List.mem_singleton] at this
        subst this
        exact List.nodup_nil
    · unfold World.views
      simp only [List.map_append, List.map_cons, List.map_nil]
      rfl
  | copy i =>
    simp only [step, stepV]
    rw [views_get]
    cases hc : w.cats[i]? with
    | none => exact ⟨hi, rfl, rfl⟩
    | some c =>
      simp only [Option.map_some]
      refine ⟨⟨?_, ?_⟩, ?_, trivial⟩
      · intro j d hd r hr
        rw [List.getElem?_append] at hd
        split at hd
        · exact hi.lt j d hd r hr
        · have := List.mem_of_getElem? hd
          rw [List.mem_singleton] at this
          rw [this] at hr
          exact hi.lt i c hc r hr
      · intro j d hd
        rw [List.getElem?_append] at hd
        split at hd
        · exact hi.nodup j d hd
        · have := List.mem_of_getElem? hd
          rw [List.mem_singleton] at this
          rw [this]
          exact hi.nodup i c hc
      · unfold World.views
        simp only [List.map_append, List.map_cons, List.map_nil]
        rfl
  | load i rd resolve path =>
    simp only [step, stepV]
    rw [views_get]
    cases hc : w.cats[i]? with
    | none => exact ⟨hi, rfl, rfl⟩
    | some c =>
      simp only [Option.map_some]
      obtain ⟨m, e, o⟩ := load_sim rd resolve path (hi.good hc) (hs c hc)
      obtain ⟨h1, h2⟩ := put_sim hc hi m
      refine ⟨h1, ?_, by rw [o]⟩
      rw [← e]
      exact h2
  | add i name n =>
    simp only [step, stepV]
    rw [views_get]
    cases hc : w.cats[i]? with
    | none => exact ⟨hi, rfl, rfl⟩
    | some c =>
      simp only [Option.map_some]
      obtain ⟨m, e, o⟩ := addNamespace_sim (hi.good hc) name n (hs c hc)
      obtain ⟨h1, h2⟩ := put_sim hc hi m
      refine ⟨h1, ?_, by rw [o]⟩
      rw [← e]
      exact h2
  | merge i j =>
    simp only [step, stepV]
    rw [views_get, views_get]
    cases hc : w.cats[i]? with
    | none => exact ⟨hi, rfl, rfl⟩
    | some c =>
      cases hd : w.cats[j]? with
      | none => exact ⟨hi, rfl, rfl⟩
      | some d =>
        simp only [Option.map_some]
        obtain ⟨m, e, o⟩ := mergeLoop_sim d.namespaces (hi.good hc) (hs c d hc hd)
        obtain ⟨h1, h2⟩ := put_sim hc hi m
        rw [show (view w.heap d).namespaces = d.namespaces from rfl]
        refine ⟨h1, ?_, by rw [o]⟩
        rw [← e]
        exact h2

/-- A program all of whose calls are `Safe` where they are made. -/
def SafeRun : World → List Op → Prop
  | _, [] => True
  | w, o :: os => Safe w o ∧ SafeRun (step w o).1 os

theorem run_sim (os : List Op) : ∀ {w : World} (_ : Inv w) (_ : SafeRun w os),
    Inv (run w os).1 ∧ (run w os).1.views = (runV w.views os).1 ∧ (run w os).2 = (runV w.views os).2 := by
  induction os with
  | nil =>
    intro w hi _
    exact ⟨hi, rfl, rfl⟩
  | cons o os ih =>
    intro w hi hs
    obtain ⟨h1, h2, h3⟩ := step_sim hi o hs.1
    obtain ⟨h4, h5, h6⟩ := ih h1 hs.2
    unfold run runV
    rw [← h2, ← h3]
    exact ⟨h4, h5, by rw [h6]⟩

/-- Whatever is called, addresses stay in use and distinct within a catalog. -/
theorem put_inv {w : World} {i : Nat} {c : CatR} (hc : w.cats[i]? = some c) (hi : Inv w) {h' : Heap} {c' : CatR}
    (m : Move (fun _ => False) w.heap c h' c') : Inv (w.put i (h', c')) := by
  have hlt : i < w.cats.length := (List.getElem?_eq_some_iff.1 hc).1
  have hget : ∀ j, (w.cats.set i c')[j]? = if j = i then some c' else w.cats[j]? := by
    intro j
    rw [List.getElem?_set]
    by_cases h : i = j
    · subst h; simp [hlt]
    · rw [if_neg h, if_neg (fun e => h e.symm)]
  refine ⟨?_, ?_⟩
  · intro j d hd r hr
    change (w.cats.set i c')[j]? = some d at hd
    rw [hget] at hd
    split at hd
    · cases hd; exact m.good.lt r hr
    · exact Nat.lt_of_lt_of_le (hi.lt j d hd r hr) m.le
  · intro j d hd
    change (w.cats.set i c')[j]? = some d at hd
    rw [hget] at hd
    split at hd
    · cases hd; exact m.good.nodup
    · exact hi.nodup j d hd

theorem Inv.alone {w : World} (hi : Inv w) {i : Nat} {c : CatR} (hc : w.cats[i]? = some c) :
    Good (fun _ => False) w.heap c := ⟨hi.lt i c hc, hi.nodup i c hc, fun _ h => h.elim⟩

theorem step_inv {w : World} (hi : Inv w) (o : Op) : Inv (step w o).1 := by
  cases o with
  | new => exact (step_sim hi .new trivial).1
  | copy i => exact (step_sim hi (.copy i) trivial).1
  | load i rd resolve path =>
    simp only [step]
    cases hc : w.cats[i]? with
    | none => exact hi
    | some c => exact put_inv hc hi (load_sim rd resolve path (hi.alone hc) fun _ _ _ _ _ _ h => h).1
  | add i name n =>
    simp only [step]
    cases hc : w.cats[i]? with
    | none => exact hi
    | some c => exact put_inv hc hi (addNamespace_sim (hi.alone hc) name n fun _ _ _ _ _ _ => .inr id).1
  | merge i j =>
    simp only [step]
    cases hc : w.cats[i]? with
    | none => exact hi
    | some c =>
      cases hd : w.cats[j]? with
      | none => exact hi
      | some d => exact put_inv hc hi (mergeLoop_sim d.namespaces (hi.alone hc) fun _ _ _ _ _ _ => .inr id).1

theorem run_inv (os : List Op) : ∀ {w : World} (_ : Inv w), Inv (run w os).1 := by
  induction os with
  | nil => intro w hi; exact hi
  | cons o os ih => intro w hi; exact ih (step_inv hi o)

theorem inv_empty : Inv World.empty := ⟨by intro j c h; simp [World.empty] at h, by intro j c h; simp [World.empty] at h⟩

/-! ## Generators -/

theorem registerGen_eq (l : List Gen) (g : Gen) : registerGen l g = g :: l.erase g := by
  unfold registerGen
  split
  · rfl
  · rename_i h
    rw [List.erase_of_not_mem]
    intro hm
    exact h (List.contains_iff_mem.2 hm)

theorem mem_registerGen {l : List Gen} {g x : Gen} : x ∈ registerGen l g ↔ x = g ∨ x ∈ l := by
  rw [registerGen_eq, List.mem_cons]
  by_cases h : x = g
  · simp [h]
  · rw [List.mem_erase_of_ne h]

theorem nodup_registerGen {l : List Gen} {g : Gen} (h : l.Nodup) : (registerGen l g).Nodup := by
  rw [registerGen_eq, List.nodup_cons]
  exact ⟨fun hm => (List.Nodup.mem_erase_iff h).1 hm |>.1 rfl, h.erase g⟩

theorem nodup_foldl (gs : List Gen) : ∀ {l : List Gen}, l.Nodup → (gs.foldl registerGen l).Nodup := by
  induction gs with
  | nil => intro l h; exact h
  | cons g gs ih => intro l h; exact ih (nodup_registerGen h)

theorem mem_foldl (gs : List Gen) (x : Gen) : ∀ {l : List Gen}, x ∈ gs.foldl registerGen l ↔ x ∈ gs ∨ x ∈ l := by
  induction gs with
  | nil => intro l; simp
  | cons g gs ih =>
    intro l
    rw [List.foldl_cons, ih, mem_registerGen, List.mem_cons]
    tauto

theorem sublist_foldl {a b : Gen} (gs : List Gen) : ∀ {l : List Gen}, a ∉ gs → b ∉ gs → [a, b].Sublist l →
    [a, b].Sublist (gs.foldl registerGen l) := by
  induction gs with
  | nil => intro l _ _ h; exact h
  | cons g gs ih =>
    intro l ha hb h
    rw [List.mem_cons, not_or] at ha hb
    refine ih ha.2 hb.2 ?_
    rw [registerGen_eq]
    have := h.erase g
    rw [List.erase_of_not_mem (by simp [Ne.symm ha.1, Ne.symm hb.1])] at this
    exact this.cons g

/-- Registering the generators of a list from the last to the first puts them in front in the order of the list. -/
theorem mergeGens_eq {l m : List Gen} (hl : l.Nodup) (hm : m.Nodup) :
    mergeGens l m = m ++ l.filter (fun g => !m.contains g) := by
  unfold mergeGens
  induction m with
  | nil =>
    simp only [List.reverse_nil, List.foldl_nil, List.nil_append]
    rw [List.filter_eq_self.2]
    intro a _
    rfl
  | cons g m ih =>
    rw [List.nodup_cons] at hm
    rw [List.reverse_cons, List.foldl_append, List.foldl_cons, List.foldl_nil, ih hm.2, registerGen_eq,
      List.cons_append]
    congr 1
    rw [List.erase_append_right _ hm.1]
    congr 1
    rw [List.Nodup.erase_eq_filter (hl.filter _), List.filter_filter]
    apply List.filter_congr
    intro x _
    by_cases h : x = g
    · simp [h]
    · simp [h]

theorem find?_sublist_first {p : Gen → Bool} {l : List Gen} {a : Gen} (hn : l.Nodup) (ha : a ∈ l) (hp : p a = true)
    (hb : ∀ b ∈ l, p b = true → b ≠ a → [a, b].Sublist l) : l.find? p = some a := by
  induction l with
  | nil => cases ha
  | cons x l ih =>
    rw [List.nodup_cons] at hn
    by_cases hx : x = a
    · subst hx
      rw [List.find?_cons_of_pos hp]
    · have hal : a ∈ l := (List.mem_cons.1 ha).resolve_left (fun e => hx e.symm)
      have hpx : ¬ p x = true := by
        intro hpx
        have := hb x (List.mem_cons_self ..) hpx hx
        rcases List.sublist_cons_iff.1 this with h1 | ⟨r, h1, h2⟩
        · exact hn.1 (h1.subset (by simp))
        · cases h1
          exact hx rfl
      rw [List.find?_cons_of_neg hpx]
      refine ih hn.2 hal fun b hbl hpb hba => ?_
      rcases List.sublist_cons_iff.1 (hb b (List.mem_cons_of_mem _ hbl) hpb hba) with h1 | ⟨r, h1, h2⟩
      · exact h1
      · cases h1
        exact absurd rfl hx

theorem initGens_eq : initGens = [mci, custom] := by decide

/-! ## Merging type maps -/

theorem merge_entry {t u : TypeMap.St} (hu : TypeMap.CtOk u.ct) {t' : TypeMap.St} {x : Unit}
    (h : TypeMap.merge t u = (t', .ok x)) (k : TypeMap.Key) :
    TypeMap.entry t'.ct k = (TypeMap.entry u.ct k).or (TypeMap.entry t.ct k) ∧ t'.cat = t.cat := by
  unfold TypeMap.merge at h
  rcases hr : TypeMap.forAll (fun s p => TypeMap.register s p.1 p.2) (TypeMap.flat u.ct) t with ⟨st1, r⟩
  rw [hr] at h
  cases r with
  | error e => simp at h
  | ok v =>
    simp only at h
    obtain ⟨a1, a2, _, _, _, a6, _⟩ := TypeMap.forAll_register_ok (TypeMap.flat u.ct) t st1 v hr
    obtain ⟨b1, _, _, b4⟩ := TypeMap.forAll_registerMap_ok _ _ _ x h
    rw [b1, b4, a6]
    refine ⟨?_, rfl⟩
    cases he : TypeMap.entry u.ct k with
    | none =>
      rw [a1 k (fun e hm => by rw [(TypeMap.entry_of_mem_flat hu).1 hm] at he; cases he)]
      rfl
    | some e =>
      refine a2 k e ((TypeMap.entry_of_mem_flat hu).2 he) (fun e' hm => ?_)
      rw [(TypeMap.entry_of_mem_flat hu).1 hm] at he
      cases he
      rfl

theorem forAll_register_specs (L : List (TypeMap.Key × TypeMap.Entry)) (st st' : TypeMap.St) (u : Unit)
    (h : TypeMap.forAll (fun s p => TypeMap.register s p.1 p.2) L st = (st', .ok u)) :
    ∀ p ∈ L, ∃ s, TypeMap.getSpec st.cat p.1 = .ok s := by
  induction L generalizing st with
  | nil => intro p hp; cases hp
  | cons q L ih =>
    unfold TypeMap.forAll at h
    cases hs : TypeMap.getSpec st.cat q.1 with
    | error e =>
      simp [TypeMap.register, hs] at h
    | ok s =>
      simp only [TypeMap.register, hs] at h
      intro p hp
      rcases List.mem_cons.1 hp with h1 | h1
      · rw [h1]; exact ⟨s, hs⟩
      · exact ih _ h p h1

/-- A merge that succeeds has found a specification for every type of the other type map. -/
theorem merge_specs {t u : TypeMap.St} (hu : TypeMap.CtOk u.ct) {t' : TypeMap.St} {x : Unit}
    (h : TypeMap.merge t u = (t', .ok x)) (k : TypeMap.Key) (e : TypeMap.Entry) (he : TypeMap.entry u.ct k = some e) :
    ∃ s, TypeMap.getSpec t.cat k = .ok s := by
  unfold TypeMap.merge at h
  rcases hr : TypeMap.forAll (fun s p => TypeMap.register s p.1 p.2) (TypeMap.flat u.ct) t with ⟨st1, r⟩
  rw [hr] at h
  cases r with
  | error e => simp at h
  | ok v => exact forAll_register_specs _ _ _ v hr (k, e) ((TypeMap.entry_of_mem_flat hu).2 he)

theorem mergeTM_ok {t u t' : TM} {x : Unit} (h : mergeTM t u = (t', .ok x)) :
    TypeMap.merge t.st u.st = (t'.st, .ok ()) ∧ t'.gens = mergeGens t.gens u.gens := by
  unfold mergeTM at h
  rcases hr : TypeMap.merge t.st u.st with ⟨st, r⟩
  rw [hr] at h
  cases r with
  | error e => simp at h
  | ok v =>
    simp only [Prod.mk.injEq] at h
    rw [← h.1]
    exact ⟨rfl, rfl⟩

/-- The classes after merging a list of type maps one after the other. -/
theorem applyExts_entry (f : Nat) (us : List TM) : ∀ (t t' : TM), (∀ u ∈ us, TypeMap.CtOk u.st.ct) →
    applyExts f t (us.map .map) = (t', .ok ()) → ∀ k,
    TypeMap.entry t'.st.ct k =
      ((us.reverse.findSome? fun u => TypeMap.entry u.st.ct k).or (TypeMap.entry t.st.ct k)) ∧ t'.st.cat = t.st.cat := by
  induction us with
  | nil =>
    intro t t' _ h k
    cases h
    exact ⟨rfl, rfl⟩
  | cons u us ih =>
    intro t t' hw h k
    simp only [List.map_cons, applyExts, applyExt] at h
    rcases hr : mergeTM t u with ⟨t1, r⟩
    rw [hr] at h
    cases r with
    | error e => simp at h
    | ok v =>
      simp only at h
      obtain ⟨m, _⟩ := mergeTM_ok hr
      obtain ⟨e1, c1⟩ := merge_entry (hw u (List.mem_cons_self ..)) m k
      obtain ⟨e2, c2⟩ := ih t1 t' (fun u' hu' => hw u' (List.mem_cons_of_mem _ hu')) h k
      refine ⟨?_, c2.trans c1⟩
      rw [e2, e1, List.reverse_cons, List.findSome?_append]
      simp only [List.findSome?_cons, List.findSome?_nil]
      rw [Option.or_assoc]
      congr 2
      cases TypeMap.entry u.st.ct k <;> rfl

theorem applyExts_specs (f : Nat) (us : List TM) : ∀ (t t' : TM), (∀ u ∈ us, TypeMap.CtOk u.st.ct) →
    applyExts f t (us.map .map) = (t', .ok ()) → ∀ u ∈ us, ∀ k e, TypeMap.entry u.st.ct k = some e →
    ∃ s, TypeMap.getSpec t.st.cat k = .ok s := by
  induction us with
  | nil => intro t t' _ _ u hu; cases hu
  | cons u us ih =>
    intro t t' hw h u' hu' k e he
    simp only [List.map_cons, applyExts, applyExt] at h
    rcases hr : mergeTM t u with ⟨t1, r⟩
    rw [hr] at h
    cases r with
    | error e => simp at h
    | ok v =>
      simp only at h
      obtain ⟨m, _⟩ := mergeTM_ok hr
      rcases List.mem_cons.1 hu' with h1 | h1
      · subst h1
        exact merge_specs (hw u' (List.mem_cons_self ..)) m k e he
      · have := ih t1 t' (fun u' hu' => hw u' (List.mem_cons_of_mem _ hu')) h u' h1 k e he
        rw [(merge_entry (hw u (List.mem_cons_self ..)) m k).2] at this
        exact this

end Verif.Share
