import Verif.Lemmas.Builders

/-!
# Properties of builders
-/

namespace Verif.Builders
open Verif Relation

/-- **C33.** After any history of operations, accepted or rejected, no name occurs in two of the four categories of a group. -/
theorem C33_names_unique (ops : List Op) (n : Nat) (name : Key) (k k' : Kind) :
    let b := (run Heap.empty ops).node n
    let cat : Kind → List Key := fun k => match k with
      | .group => b.groups.map Prod.fst
      | .dataset => b.datasets.map Prod.fst
      | .link => b.links.map Prod.fst
      | .attr => b.attrs.map Prod.fst
    name ∈ cat k → name ∈ cat k' → k = k' := by
  intro b cat h1 h2
  have i := run_inv ops Heap.empty hinv_empty
  have e : ∀ k, cat k = names b k := by intro k; cases k <;> rfl
  rw [e] at h1 h2
  have a1 := ((i.g n).type name k).2 h1
  have a2 := ((i.g n).type name k').2 h2
  rw [a1] at a2
  simpa using a2

/-- **C33 (rejection).** A call that raises ValueError changes nothing at all. -/
theorem C33_rejected_unchanged (h h' : Heap) (op : Op) (he : step h op = (h', .error .valueError)) : h' = h := by
  have nv : ∀ (k : Nat) (h : Heap) (n : Nat) (s : Option String), (setSource k h n s).2 ≠ .error .valueError := by
    intro k
    induction k with
    | zero => intro h n s; simp [setSource]
    | succ k ih =>
      intro h n s
      simp only [setSource]
      split
      · simp
      · have : ∀ (cs : List Nat) (h : Heap), (propagate (fun h c => setSource k h c s) h cs).2 ≠ .error .valueError := by
          intro cs
          induction cs with
          | nil => intro h; simp [propagate]
          | cons c cs ihc =>
            intro h
            simp only [propagate]
            split
            · have := ih h c s
              cases hc : setSource k h c s with
              | mk h2 r =>
                rw [hc] at this
                cases r with
                | error e => exact this
                | ok u => exact ihc h2
            · exact ihc h
        exact this _ _
  unfold step at he
  split at he
  · simp at he
  · cases op with
    | new name kind parent source content =>
      simp only at he
      split at he <;> simp at he
    | setAttribute n name v =>
      simp only at he
      split at he
      · rcases setAttribute_cases h n name v with ⟨e, -⟩ | ⟨e, -⟩ <;> rw [e] at he <;> simp at he
        exact he.symm
      · simp at he
    | setBuilder n c =>
      simp only at he
      split at he
      · rcases setBuilder_cases h n c with ⟨e, -⟩ | ⟨e, -⟩ | ⟨-, -, e⟩
        · rw [e] at he; simp at he; exact he.symm
        · rw [e] at he; simp at he
        · rw [he] at e; simp at e
      · simp at he
    | setSource n s => simp only at he; have := nv h.size h n s; rw [he] at this; simp at this
    | setParent n p =>
      simp only [setParent] at he
      split at he
      · simp at he
      · split at he
        · have := nv h.size (h.upd n fun b => { b with parent := some p }) n (h.node p).source
          rw [he] at this; simp at this
        · simp at he

/-- **C33 (when).** In every reachable state, adding a sub-builder is refused with ValueError iff its name is used in another
category of the group; likewise for attributes. -/
theorem C33_rejected_iff (ops : List Op) (n c : Nat) (name : Key) (v : Nat) :
    let h := run Heap.empty ops
    ((setBuilder h n c).2 = .error .valueError ↔
      let b := h.node n
      let nm := (h.node c).name
      (nm ∈ b.groups.map Prod.fst ∧ (h.node c).kind ≠ .group) ∨ (nm ∈ b.datasets.map Prod.fst ∧ (h.node c).kind ≠ .dataset) ∨
      (nm ∈ b.links.map Prod.fst ∧ (h.node c).kind ≠ .link) ∨ (nm ∈ b.attrs.map Prod.fst ∧ (h.node c).kind ≠ .attr)) ∧
    ((setAttribute h n name v).2 = .error .valueError ↔
      name ∈ (h.node n).groups.map Prod.fst ∨ name ∈ (h.node n).datasets.map Prod.fst ∨
        name ∈ (h.node n).links.map Prod.fst) := by
  intro h
  have i : HInv h := run_inv ops Heap.empty hinv_empty
  have key : ∀ nm k, objTypeOk (h.node n) nm k = false ↔ ∃ k', k' ≠ k ∧ Dict.get? (h.node n).objType nm = some k' := by
    intro nm k
    unfold objTypeOk
    cases ht : Dict.get? (h.node n).objType nm with
    | none => simp
    | some k' => simp
  constructor
  · have h1 : (setBuilder h n c).2 = .error .valueError ↔ objTypeOk (h.node n) (h.node c).name (h.node c).kind = false := by
      rcases setBuilder_cases h n c with ⟨e, hk⟩ | ⟨e, hk, -⟩ | ⟨hk, -, e⟩
      · simp [e, hk]
      · simp [e, hk]
      · simp [e, hk]
    rw [h1, key]
    dsimp only
    constructor
    · rintro ⟨k, h2, h3⟩
      have hm := ((i.g n).type _ k).1 h3
      cases k with
      | group => exact .inl ⟨hm, h2.symm⟩
      | dataset => exact .inr (.inl ⟨hm, h2.symm⟩)
      | link => exact .inr (.inr (.inl ⟨hm, h2.symm⟩))
      | attr => exact .inr (.inr (.inr ⟨hm, h2.symm⟩))
    · rintro (⟨hm, h2⟩ | ⟨hm, h2⟩ | ⟨hm, h2⟩ | ⟨hm, h2⟩)
      · exact ⟨_, h2.symm, ((i.g n).type _ .group).2 hm⟩
      · exact ⟨_, h2.symm, ((i.g n).type _ .dataset).2 hm⟩
      · exact ⟨_, h2.symm, ((i.g n).type _ .link).2 hm⟩
      · exact ⟨_, h2.symm, ((i.g n).type _ .attr).2 hm⟩
  · rcases setAttribute_cases h n name v with ⟨e, hk⟩ | ⟨e, hk⟩
    · rw [e]
      simp only [true_iff]
      obtain ⟨k', h1, h2⟩ := (key _ _).1 hk
      have hm := ((i.g n).type name k').1 h2
      cases k' with
      | attr => exact absurd rfl h1
      | group => exact .inl hm
      | dataset => exact .inr (.inl hm)
      | link => exact .inr (.inr hm)
    · rw [e]
      simp only [reduceCtorEq, false_iff]
      intro hm
      have : objTypeOk (h.node n) name .attr = false := by
        rw [key]
        rcases hm with hm | hm | hm
        · exact ⟨.group, by simp, ((i.g n).type name .group).2 hm⟩
        · exact ⟨.dataset, by simp, ((i.g n).type name .dataset).2 hm⟩
        · exact ⟨.link, by simp, ((i.g n).type name .link).2 hm⟩
      rw [hk] at this; simp at this

/-- a history used as example: a group with a dataset `d`, a subgroup `g` holding a dataset `x`; two refusals -/
def demo : List Op :=
  [.new ["root"] .group none none 0, .new ["d"] .dataset none none 7, .new ["g"] .group none none 0,
   .new ["x"] .dataset none none 9, .setBuilder 0 1, .setBuilder 0 2, .setBuilder 2 3, .setAttribute 0 ["a"] 5,
   .setAttribute 0 ["d"] 6, .new ["a"] .group none none 0, .setBuilder 0 4, .setSource 0 (some "file")]

/-- non-vacuity: the two clashes are refused -/
example : (step (run Heap.empty (demo.take 8)) (.setAttribute 0 ["d"] 6)).2 = .error .valueError ∧
    (step (run Heap.empty (demo.take 10)) (.setBuilder 0 4)).2 = .error .valueError := by decide +kernel

/-- **C34 (stored).** After an accepted `set_group`/`set_dataset`/`set_link` of a builder whose name is non-empty and free of
slashes, looking up the name finds that builder, or the builder equal to it by content that was there before. -/
theorem C34_stored_partial (ops : List Op) (n c : Nat) (a : String) (h' : Heap) (ha : a ≠ "")
    (hstep : step (run Heap.empty ops) (.setBuilder n c) = (h', .ok ()))
    (hname : ((run Heap.empty ops).node c).name = [a]) :
    getItem h' n [a] = .ok (.builder c) ∨
    ∃ c', getItem h' n [a] = .ok (.builder c') ∧ eqB h'.size h' c' c = true ∧ h' = run Heap.empty ops := by
  generalize hh : run Heap.empty ops = h at *
  have i : HInv h := by rw [← hh]; exact run_inv ops Heap.empty hinv_empty
  have i' : HInv h' := by have := step_inv i (.setBuilder n c); rwa [hstep] at this
  unfold step at hstep
  split at hstep
  · simp at hstep
  · simp only at hstep
    split at hstep
    · rename_i hk
      rcases setBuilder_cases h n c with ⟨e, -⟩ | ⟨e, -, c', hc', heq⟩ | ⟨-, hs, -⟩
      · rw [e] at hstep; simp at hstep
      · rw [e] at hstep; simp at hstep
        subst hstep
        right
        exact ⟨c', by rw [← hname]; exact hc', heq, rfl⟩
      · left
        rw [hstep] at hs
        simp only at hs
        rw [getItem, normpath_single a ha, getRec_single i']
        refine ⟨(h.node c).kind, hk.2, ?_⟩
        rw [hs.sub, stored_node, if_pos rfl]
        have e : ({ (h.node n).setSub (h.node c).kind (h.node c).name c with
            objType := (h.node n).objType.set (h.node c).name (h.node c).kind } : Node).sub (h.node c).kind =
            ((h.node n).setSub (h.node c).kind (h.node c).name c).sub (h.node c).kind := by
          cases (h.node c).kind <;> rfl
        rw [e, setSub_sub _ _ _ _ _ hk.2, if_pos rfl, ← hname, Dict.get?_set_self]
    · simp at hstep

/-- **C34 (stays).** What a lookup by a slash-free name finds stays until an operation on the same group sets that name. -/
theorem C34_stays (ops : List Op) (op : Op) (n c : Nat) (a : String) (ha : a ≠ "")
    (hn : n < (run Heap.empty ops).size)
    (hlook : getItem (run Heap.empty ops) n [a] = .ok (.builder c))
    (hop : ∀ c', op = .setBuilder n c' → ((run Heap.empty ops).node c').name ≠ [a]) :
    getItem (run Heap.empty (ops ++ [op])) n [a] = .ok (.builder c) := by
  have hrun : run Heap.empty (ops ++ [op]) = (step (run Heap.empty ops) op).1 := by
    have : ∀ (os : List Op) (h : Heap), run h (os ++ [op]) = (step (run h os) op).1 := by
      intro os
      induction os with
      | nil => intro h; rfl
      | cons o os ih => intro h; exact ih _
    exact this ops _
  rw [hrun]
  generalize hh : run Heap.empty ops = h at *
  have i : HInv h := by rw [← hh]; exact run_inv ops Heap.empty hinv_empty
  have i' := step_inv i op
  rw [getItem, normpath_single a ha] at hlook ⊢
  rw [getRec_single i] at hlook
  obtain ⟨k, hk, hv⟩ := hlook
  rw [getRec_single i']
  refine ⟨k, hk, ?_⟩
  have hsp : ∀ h2, SrcPar h h2 → Dict.get? ((h2.node n).sub k) [a] = some c := fun h2 s => by rw [s.sub]; exact hv
  unfold step
  split
  · exact hv
  · cases op with
    | new name kind parent source content =>
      simp only
      split
      · exact hv
      · simp only [Heap.new]; rw [if_neg (by omega)]; exact hv
    | setAttribute m name v =>
      simp only
      split
      · rcases setAttribute_cases h m name v with ⟨e, -⟩ | ⟨e, -⟩
        · rw [e]; exact hv
        · rw [e]
          simp only [upd_node]
          split
          · rename_i e2; subst e2
            cases k <;> exact hv
          · exact hv
      · exact hv
    | setSource m s => exact hsp _ (setSource_src _ _ _ _).srcPar
    | setParent m p => exact hsp _ (setParent_srcPar _ _ _)
    | setBuilder m d =>
      simp only
      split
      · rename_i hkk
        rcases setBuilder_cases h m d with ⟨e, -⟩ | ⟨e, -⟩ | ⟨-, hs, -⟩
        · rw [e]; exact hv
        · rw [e]; exact hv
        · rw [hs.sub, stored_node]
          split
          · rename_i e2
            subst e2
            have e : ({ (h.node n).setSub (h.node d).kind (h.node d).name d with
                objType := (h.node n).objType.set (h.node d).name (h.node d).kind } : Node).sub k =
                ((h.node n).setSub (h.node d).kind (h.node d).name d).sub k := by
              cases k <;> rfl
            rw [e, setSub_sub _ _ _ _ _ hkk.2]
            split
            · rw [Dict.get?_set_ne (fun e => hop d rfl e.symm)]; exact hv
            · exact hv
          · exact hv
      · exact hv

/-- **C34 (attributes).** After an accepted `set_attribute`, looking up its slash-free name finds the value. -/
theorem C34_attribute (ops : List Op) (n v : Nat) (a : String) (h' : Heap) (ha : a ≠ "")
    (hstep : step (run Heap.empty ops) (.setAttribute n [a] v) = (h', .ok ())) : getItem h' n [a] = .ok (.attr v) := by
  generalize hh : run Heap.empty ops = h at *
  have i : HInv h := by rw [← hh]; exact run_inv ops Heap.empty hinv_empty
  have i' : HInv h' := by have := step_inv i (.setAttribute n [a] v); rwa [hstep] at this
  rw [getItem, normpath_single a ha, getRec_attr i']
  unfold step at hstep
  split at hstep
  · simp at hstep
  · simp only at hstep
    split at hstep
    · rcases setAttribute_cases h n [a] v with ⟨e, -⟩ | ⟨e, -⟩
      · rw [e] at hstep; simp at hstep
      · rw [e] at hstep; simp at hstep
        rw [← hstep]
        simp [Dict.get?_set_self]
    · simp at hstep

/-- **C34 (paths).** In every reachable state, looking up a path `p/q` (parts other than "", "." and "..") is looking up `q`
in the group found under `p`, and KeyError if `p` does not name a group. -/
theorem C34_path (ops : List Op) (n : Nat) (p q : Key) (hp : ∀ a ∈ p, a ≠ "" ∧ a ≠ "." ∧ a ≠ "..")
    (hq : ∀ a ∈ q, a ≠ "" ∧ a ≠ "." ∧ a ≠ "..") (hpn : p ≠ []) (hqn : q ≠ []) :
    let h := run Heap.empty ops
    (∀ c, getItem h n p = .ok (.builder c) → (h.node c).kind = .group → getItem h n (p ++ q) = getItem h c q) ∧
    ((∀ c, getItem h n p = .ok (.builder c) → (h.node c).kind ≠ .group) → getItem h n (p ++ q) = .error .keyError) := by
  intro h
  have i : HInv h := run_inv ops Heap.empty hinv_empty
  have npq : normpath (p ++ q) = p ++ q := normpath_plain _ (by
    intro a ha; rcases List.mem_append.1 ha with ha | ha
    · exact hp a ha
    · exact hq a ha) (by simp [hpn])
  have np : normpath p = p := normpath_plain _ hp hpn
  have nq : normpath q = q := normpath_plain _ hq hqn
  simp only [getItem, npq, np, nq]
  clear hp hq npq np nq
  obtain ⟨b, q', rfl⟩ : ∃ b q', q = b :: q' := by
    cases q with
    | nil => exact absurd rfl hqn
    | cons b q' => exact ⟨b, q', rfl⟩
  induction p generalizing n with
  | nil => exact absurd rfl hpn
  | cons a p ih =>
    cases p with
    | nil =>
      have hg : ∀ c, Dict.get? (h.node n).groups [a] = some c →
          getRec h n [a] = .ok (.builder c) ∧ (h.node c).kind = .group := fun c hc =>
        ⟨(getRec_single i n c a).2 ⟨.group, by simp, hc⟩, (i.sub n .group [a] c hc).2.1⟩
      constructor
      · intro c hc hk
        obtain ⟨k, hka, hv⟩ := (getRec_single i n c a).1 hc
        have := (i.sub n k [a] c hv).2.1
        rw [hk] at this; subst this
        simp only [Node.sub] at hv
        simp [getRec, hv]
      · intro hno
        cases hv : Dict.get? (h.node n).groups [a] with
        | none => simp [getRec, hv]
        | some c => exact absurd (hg c hv).2 (hno c (hg c hv).1)
    | cons a2 p =>
      simp only [List.cons_append, getRec]
      cases hv : Dict.get? (h.node n).groups [a] with
      | none => simp
      | some c => exact ih c (by simp)

/-- **C34 (dots).** In a path of plain parts, an inserted "", "." or pair `a/..` makes no difference (not at the very start for
"", which makes the path absolute). -/
theorem C34_dots (h : Heap) (n : Nat) (p q : Key) (a d : String) (hp : ∀ a ∈ p, a ≠ "" ∧ a ≠ "." ∧ a ≠ "..")
    (hq : ∀ a ∈ q, a ≠ "" ∧ a ≠ "." ∧ a ≠ "..") (ha : a ≠ "" ∧ a ≠ "." ∧ a ≠ "..") (hne : p ++ q ≠ []) (hpn : p ≠ [] ∨ d = ".")
    (hd : d = "" ∨ d = ".") :
    getItem h n (p ++ [a, ".."] ++ q) = getItem h n (p ++ q) ∧ getItem h n (p ++ d :: q) = getItem h n (p ++ q) := by
  have pre : ∀ (p r new : Key), (∀ a ∈ p, plainPart a) → normLoop false (p ++ r) new = normLoop false r (p.reverse ++ new) := by
    intro p
    induction p with
    | nil => intro r new _; rfl
    | cons b p ih =>
      intro r new hb
      obtain ⟨h1, h2, h3⟩ := hb b (by simp)
      rw [List.cons_append, normLoop, if_neg (by simp [h1, h2]), if_pos (.inl h3), ih _ _ (fun x hx => hb x (by simp [hx]))]
      simp
  have e0 : normpath (p ++ q) = p ++ q := normpath_plain _ (by
    intro x hx; rcases List.mem_append.1 hx with hx | hx
    · exact hp x hx
    · exact hq x hx) hne
  have sl : ∀ (x : String) (r : Key), x ≠ "" → initialSlashes (x :: r) = 0 := by
    intro x r hx; cases r <;> simp [initialSlashes, hx]
  have fin : ∀ r : Key, r ≠ [""] → initialSlashes r = 0 → normLoop false r [] = p ++ q → normpath r = p ++ q := by
    intro r h1 h2 h3
    unfold normpath
    rw [if_neg h1, if_pos h2, h3, if_neg hne]
  have l1 : normLoop false (p ++ [a, ".."] ++ q) [] = p ++ q := by
    rw [List.append_assoc, pre p _ _ hp]
    have : normLoop false ([a, ".."] ++ q) (p.reverse ++ []) = normLoop false q (p.reverse ++ []) := by
      obtain ⟨h1, h2, h3⟩ := ha
      rw [List.cons_append, normLoop, if_neg (by simp [h1, h2]), if_pos (.inl h3)]
      rw [List.cons_append, normLoop, if_neg (by simp), if_neg (by simp [h3])]
      simp
    rw [this, normLoop_plain false q _ hq]
    simp
  have l2 : normLoop false (p ++ d :: q) [] = p ++ q := by
    rw [pre p _ _ hp, normLoop, if_pos hd, normLoop_plain false q _ hq]
    simp
  have f1 : normpath (p ++ [a, ".."] ++ q) = p ++ q := by
    refine fin _ ?_ ?_ l1
    · intro e; have := congrArg List.length e; simp at this; omega
    · cases p with
      | nil => exact sl _ _ ha.1
      | cons b p => exact sl _ _ (hp b (by simp)).1
  have f2 : normpath (p ++ d :: q) = p ++ q := by
    refine fin _ ?_ ?_ l2
    · intro e
      cases p with
      | nil =>
        simp only [List.nil_append, List.cons.injEq] at e
        rcases hpn with h | h
        · exact h rfl
        · rw [h] at e; simp at e
      | cons b p => simp at e
    · cases p with
      | nil =>
        rcases hpn with h | h
        · exact absurd rfl h
        · rw [h]; exact sl _ _ (by simp)
      | cons b p => exact sl _ _ (hp b (by simp)).1
  simp only [getItem, f1, f2, e0]
  exact ⟨trivial, trivial⟩

/-- non-vacuity -/
example : getItem (run Heap.empty demo) 0 ["d"] = .ok (.builder 1) ∧ getItem (run Heap.empty demo) 0 ["g", "x"] = .ok (.builder 3) ∧
    getItem (run Heap.empty demo) 0 ["g", ".", "", "x"] = .ok (.builder 3) ∧
    getItem (run Heap.empty demo) 0 ["d", "x"] = .error .keyError := by decide +kernel

/-- **C34 fails** for names containing a slash: the builder is stored, but looking up its name raises KeyError. -/
theorem C34_slash_name_fails : ∃ (ops : List Op) (h' : Heap), step (run Heap.empty ops) (.setBuilder 0 1) = (h', .ok ()) ∧
    (h'.node 0).datasets = [(["a", "b"], 1)] ∧ getItem h' 0 ["a", "b"] = .error .keyError :=
  ⟨[.new ["root"] .group none none 0, .new ["a", "b"] .dataset none none 1], _, rfl, by decide +kernel, by decide +kernel⟩

/-- **C34 fails** by identity: a builder equal by content to one already stored is accepted but neither stored nor given a
parent; the old one is found. -/
theorem C34_equal_builder_fails : ∃ (ops : List Op) (h' : Heap), step (run Heap.empty ops) (.setBuilder 0 2) = (h', .ok ()) ∧
    getItem h' 0 ["d"] = .ok (.builder 1) ∧ (h'.node 2).parent = none :=
  ⟨[.new ["root"] .group none none 0, .new ["d"] .dataset none none 1, .new ["d"] .dataset none none 1, .setBuilder 0 1], _,
    rfl, by decide +kernel, by decide +kernel⟩

/-- **C28 (builders).** Once the source or the parent of a builder is set, no further history changes it; setting them again
raises AttributeError and changes nothing. -/
theorem C28_builder (ops ops' : List Op) (n : Nat) (hn : n < (run Heap.empty ops).size) :
    (∀ v, ((run Heap.empty ops).node n).source = some v → ((run Heap.empty (ops ++ ops')).node n).source = some v ∧
      ∀ s, step (run Heap.empty ops) (.setSource n s) = (run Heap.empty ops, .error .attributeError)) ∧
    (∀ v, ((run Heap.empty ops).node n).parent = some v → ((run Heap.empty (ops ++ ops')).node n).parent = some v ∧
      ∀ p, p < (run Heap.empty ops).size →
        step (run Heap.empty ops) (.setParent n p) = (run Heap.empty ops, .error .attributeError)) := by
  have happ : run Heap.empty (ops ++ ops') = run (run Heap.empty ops) ops' := by
    have : ∀ (os : List Op) (h : Heap), run h (os ++ ops') = run (run h os) ops' := by
      intro os
      induction os with
      | nil => intro h; rfl
      | cons o os ih => intro h; exact ih _
    exact this ops _
  have keep : ∀ (os : List Op) (h : Heap), n < h.size →
      (∀ v, (h.node n).source = some v → ((run h os).node n).source = some v) ∧
      (∀ v, (h.node n).parent = some v → ((run h os).node n).parent = some v) := by
    intro os
    induction os with
    | nil => intro h _; exact ⟨fun v h => h, fun v h => h⟩
    | cons o os ih =>
      intro h hn
      obtain ⟨h1, h2, h3⟩ := step_keep h o n hn
      obtain ⟨i1, i2⟩ := ih _ h1
      exact ⟨fun v hv => i1 v (h2 v hv), fun v hv => i2 v (h3 v hv)⟩
  obtain ⟨k1, k2⟩ := keep ops' _ hn
  rw [happ]
  refine ⟨fun v hv => ⟨k1 v hv, fun s => ?_⟩, fun v hv => ⟨k2 v hv, fun p hp => ?_⟩⟩
  · unfold step
    rw [if_neg (by simp [Op.args]; omega)]
    obtain ⟨k, hk⟩ : ∃ k, (run Heap.empty ops).size = k + 1 := ⟨(run Heap.empty ops).size - 1, by omega⟩
    simp [setSource, hk, hv]
  · unfold step
    rw [if_neg (by simp [Op.args]; omega)]
    simp [setParent, hv]

/-- non-vacuity -/
example : ((run Heap.empty demo).node 3).source = some "file" ∧ ((run Heap.empty demo).node 3).parent = some 2 := by
  decide +kernel

/-- **C73 (sources).** When setting the source of a builder returns, exactly the builder and the sub-builders (at any depth)
reached through builders without a source have got that source; all other sources, and everything else, are as before. -/
theorem C73_source_propagates (k : Nat) (h h' : Heap) (n : Nat) (s : String) (he : setSource k h n (some s) = (h', .ok ())) :
    (h.node n).source = none ∧
    (∀ m, (h'.node m).source = some s ∧ (h.node m).source = none ↔
      ReflTransGen (fun a b => b ∈ (h.node a).groups.values ++ (h.node a).datasets.values ++ (h.node a).links.values ∧
        (h.node b).source = none) n m) ∧
    (∀ m, (h.node m).source ≠ none → h'.node m = h.node m) ∧
    (∀ m, (h'.node m).source = (h.node m).source ∨ (h.node m).source = none ∧ (h'.node m).source = some s) ∧
    (∀ m, { h'.node m with source := none } = { h.node m with source := none }) := by
  obtain ⟨mk, hn⟩ := setSource_marked k h h' n s he
  refine ⟨hn, ?_, ?_, ?_, mk.src.rest⟩
  · intro m
    constructor
    · rintro ⟨h1, h2⟩
      obtain ⟨-, r, hr, q⟩ := mk.sound m h2 (by rw [h1]; simp)
      simp only [List.mem_singleton] at hr
      subst hr
      exact q
    · intro hr
      have : (h'.node m).source ≠ none ∧ (h.node m).source = none := by
        induction hr with
        | refl => exact ⟨mk.roots n (by simp), hn⟩
        | tail _ h2 ih => exact ⟨mk.closed _ ih.2 ih.1 _ h2.1, h2.2⟩
      exact ⟨(mk.sound m this.2 this.1).1, this.2⟩
  · intro m hm
    have h1 := mk.src.rest m
    cases hv : (h.node m).source with
    | none => exact absurd hv hm
    | some v =>
      have h2 := mk.src.keep m v hv
      have e : ∀ a b : Node, noSrc a = noSrc b → a.source = b.source → a = b := by
        intro a b h1 h2
        cases a; cases b
        simp only [noSrc, Node.mk.injEq] at h1 h2 ⊢
        tauto
      exact e _ _ h1 (by rw [h2, hv])
  · intro m
    by_cases hm : (h.node m).source = none
    · by_cases hm' : (h'.node m).source = none
      · left; rw [hm, hm']
      · exact .inr ⟨hm, (mk.sound m hm hm').1⟩
    · left
      cases hv : (h.node m).source with
      | none => exact absurd hv hm
      | some v => rw [mk.src.keep m v hv]

/-- **C73 (returns).** In every reachable state, also with groups inside themselves, setting a source where there is none
returns. -/
theorem C73_source_returns (ops : List Op) (n : Nat) (s : String) (hn : n < (run Heap.empty ops).size)
    (hs : ((run Heap.empty ops).node n).source = none) :
    (step (run Heap.empty ops) (.setSource n (some s))).2 = .ok () := by
  have i := run_kids ops Heap.empty kids_empty
  unfold step
  rw [if_neg (by simp [Op.args]; omega)]
  exact setSource_returns i n s hn hs

/-- non-vacuity: a group that contains itself -/
example : ((step (run Heap.empty [.new ["root"] .group none none 0, .setBuilder 0 0]) (.setSource 0 (some "f"))).1.node 0).source
    = some "f" := by decide +kernel

/-- **C73 fails** for a sub-builder created with an explicit parent and added after the parent's source was set: it is left
without a source. -/
theorem C73_explicit_parent_fails : ∃ ops : List Op, let h := run Heap.empty ops
    (h.node 0).source = some "file" ∧ getItem h 0 ["d"] = .ok (.builder 1) ∧ (h.node 1).parent = some 0 ∧
      (h.node 1).source = none :=
  ⟨[.new ["root"] .group none none 0, .new ["d"] .dataset (some 0) none 1, .setSource 0 (some "file"), .setBuilder 0 1],
    by decide +kernel⟩

end Verif.Builders
