import Verif.Lemmas.Names

/-!
# Lemmas about the mapping of specs to names
-/

namespace Verif.Names
open Verif

theorem join_eq : ∀ (p : List Name), join p = List.intercalate ['_', '_'] p
  | [] => rfl
  | [n] => by simp [join, List.intercalate]
  | n :: m :: ns => by
    have h := join_eq (m :: ns)
    rw [show join (n :: m :: ns) = n ++ '_' :: '_' :: join (m :: ns) from rfl, h]
    simp [List.intercalate, List.intersperse]

/-! ## Distinct names -/

/-- the specs whose sub-specs are named: a spec itself and those below it that have no type -/
inductive Inside : Node → Node → Prop
  | refl (n : Node) : Inside n n
  | sub {n c m : Node} (hc : c ∈ n.subs) (ht : c.typed = false) (h : Inside c m) : Inside n m

theorem node_of_own : ∀ {l : List Node}, (l.map Node.own).Nodup → ∀ {a b : Node}, a ∈ l → b ∈ l → a.own = b.own → a = b
  | [], _, _, _, h, _, _ => by cases h
  | x :: l, hn, a, b, ha, hb, e => by
    rw [List.map_cons, List.nodup_cons] at hn
    rcases List.mem_cons.1 ha with ha1 | ha1
    · rcases List.mem_cons.1 hb with hb1 | hb1
      · rw [ha1, hb1]
      · exact (hn.1 (by rw [← ha1, e]; exact List.mem_map_of_mem hb1)).elim
    · rcases List.mem_cons.1 hb with hb1 | hb1
      · exact (hn.1 (by rw [← hb1, ← e]; exact List.mem_map_of_mem ha1)).elim
      · exact node_of_own hn.2 ha1 hb1 e

theorem atS_head {m : Node} {p : List Name} {i : Nat} (h : AtS m p i) : ∃ q, p = m.own :: q := by
  cases h with
  | self => exact ⟨_, rfl⟩
  | sub => exact ⟨_, rfl⟩

theorem at_ne {n : Node} {p : List Name} {i : Nat} (h : At n p i) : p ≠ [] := by
  obtain ⟨c, -, h⟩ := h
  obtain ⟨q, rfl⟩ := atS_head h
  simp

theorem atS_unique {m : Node} {p : List Name} {i j : Nat}
    (hd : m.typed = false → ∀ x, Inside m x → (x.subs.map Node.own).Nodup) (h : AtS m p i) (h' : AtS m p j) : i = j := by
  induction h with
  | self m =>
    rcases (atS_iff _ _ _).1 h' with ⟨-, rfl⟩ | ⟨-, q, c, -, hq, e⟩
    · rfl
    · cases e
      obtain ⟨_, hq⟩ := atS_head hq
      cases hq
  | @sub m c p i ht hc h ih =>
    rcases (atS_iff _ _ _).1 h' with ⟨e, -⟩ | ⟨-, q, c', hc', hq, e⟩
    · cases e
      obtain ⟨_, hq⟩ := atS_head h
      cases hq
    · cases e
      have hcc : c = c' := by
        obtain ⟨q1, e1⟩ := atS_head h
        obtain ⟨q2, e2⟩ := atS_head hq
        rw [e1] at e2
        exact node_of_own (hd ht m (.refl m)) hc hc' (List.cons.inj e2).1
      subst hcc
      exact ih (fun htc x hx => hd ht x (.sub hc htc hx)) hq

theorem at_unique {n : Node} {p : List Name} {i j : Nat} (hd : ∀ x, Inside n x → (x.subs.map Node.own).Nodup)
    (h : At n p i) (h' : At n p j) : i = j := by
  obtain ⟨c, hc, h⟩ := h
  obtain ⟨c', hc', h'⟩ := h'
  obtain ⟨q1, e1⟩ := atS_head h
  obtain ⟨q2, e2⟩ := atS_head h'
  have hcc : c = c' := node_of_own (hd n (.refl n)) hc hc' (by rw [e1] at e2; exact (List.cons.inj e2).1)
  subst hcc
  exact atS_unique (fun ht x hx => hd x (.sub hc ht hx)) h h'

theorem atS_plain {m : Node} {p : List Name} {i : Nat} (hm : Plain m.own)
    (hd : m.typed = false → ∀ x, Inside m x → ∀ c ∈ x.subs, Plain c.own) (h : AtS m p i) : ∀ n ∈ p, Plain n := by
  induction h with
  | self m => intro n hn; rw [List.mem_singleton.1 hn]; exact hm
  | @sub m c p i ht hc h ih =>
    intro n hn
    rcases List.mem_cons.1 hn with rfl | hn
    · exact hm
    · exact ih (hd ht m (.refl m) c hc) (fun htc x hx => hd ht x (.sub hc htc hx)) n hn

theorem at_plain {n : Node} {p : List Name} {i : Nat} (hd : ∀ x, Inside n x → ∀ c ∈ x.subs, Plain c.own) (h : At n p i) : ∀ n ∈ p, Plain n := by
  obtain ⟨c, hc, h⟩ := h
  exact atS_plain (hd n (.refl n) c hc) (fun ht x hx => hd x (.sub hc ht hx)) h

/-! ## Names of types in camel case are plain -/

theorem plain_words : ∀ (ws : List Name) (w : Name), w ≠ [] → '_' ∉ w → (∀ v ∈ ws, v ≠ [] ∧ '_' ∉ v) →
    Plain (w ++ (ws.map (fun v => '_' :: v)).flatten)
  | [], w, hne, hw, _ => by
    simp only [List.map_nil, List.flatten_nil, List.append_nil]
    constructor
    · intro h
      exact hw (List.mem_of_getLast? h)
    · rintro ⟨a, b, rfl⟩
      exact hw (by simp)
  | v :: ws, w, hne, hw, hv => by
    obtain ⟨h1, h2⟩ := plain_words ws v (hv v (by simp)).1 (hv v (by simp)).2 (fun x hx => hv x (List.mem_cons_of_mem _ hx))
    have hvne : v ++ (ws.map (fun v => '_' :: v)).flatten ≠ [] := by
      have := (hv v (by simp)).1
      simp [this]
    simp only [List.map_cons, List.flatten_cons, List.cons_append]
    generalize hr : v ++ (ws.map (fun v => '_' :: v)).flatten = r at *
    have hhead : r.head? ≠ some '_' := by
      have := (hv v (by simp)).1
      cases v with
      | nil => exact (this rfl).elim
      | cons c v =>
        rw [← hr]
        intro e
        have e : some c = some '_' := e
        cases e
        exact (hv ('_' :: v) (by simp)).2 (by simp)
    constructor
    · have e : ('_' :: r).getLast? = r.getLast? := by
        cases r with
        | nil => exact (hvne rfl).elim
        | cons c r => simp
      rw [List.getLast?_append, e]
      cases hl : r.getLast? with
      | none => exact (hvne (List.getLast?_eq_none_iff.1 hl)).elim
      | some c => rw [hl] at h1; exact h1
    · rintro ⟨a, b, e⟩
      clear hr hne
      induction w generalizing a with
      | nil =>
        cases a with
        | nil =>
          simp only [List.nil_append, List.cons_append, List.cons.injEq, true_and] at e
          rw [← e] at hhead
          exact hhead rfl
        | cons x a =>
          simp only [List.nil_append, List.cons_append, List.cons.injEq] at e
          exact h2 ⟨a, b, by simpa using e.2⟩
      | cons x w ih =>
        cases a with
        | nil =>
          simp only [List.nil_append, List.cons_append, List.cons.injEq] at e
          exact hw (by rw [e.1]; simp)
        | cons y a =>
          simp only [List.cons_append, List.cons.injEq] at e
          exact ih (fun h => hw (List.mem_cons_of_mem _ h)) a e.2

theorem word_lower (w : Word) : w.text.map Char.toLower ≠ [] ∧ '_' ∉ w.text.map Char.toLower := by
  refine ⟨by simp [Word.text], ?_⟩
  intro h
  obtain ⟨c, hc, e⟩ := List.mem_map.1 h
  have := toLower_eq_underscore.1 e
  subst this
  rcases List.mem_cons.1 hc with h | h
  · exact upper_ne_underscore w.hcap h.symm
  · exact lower_ne_underscore (w.hlow _ h) rfl

theorem plain_snoc {n : Name} (hn : Plain n) {c : Char} (hc : c ≠ '_') : Plain (n ++ [c]) := by
  constructor
  · simp [hc]
  · rintro ⟨a, b, e⟩
    rcases List.eq_nil_or_concat b with rfl | ⟨b', d, rfl⟩
    · have := congrArg List.getLast? e
      simp at this
      exact hc this.symm
    · rw [List.concat_eq_append, ← List.append_assoc] at e
      exact hn.2 ⟨a, b', List.append_inj_left' e rfl⟩

theorem convert_camel_plain (w : Word) (ws : List Word) (many : Bool) : Plain (convertDtName (camel (w :: ws)) many) := by
  have h : Plain (snake (camel (w :: ws))) := by
    rw [snake_camel]
    have := plain_words (ws.map (fun v => v.text.map Char.toLower)) (w.text.map Char.toLower) (word_lower w).1 (word_lower w).2 (by
      intro v hv
      obtain ⟨u, -, rfl⟩ := List.mem_map.1 hv
      exact word_lower u)
    rw [List.map_map] at this
    exact this
  unfold convertDtName
  split
  · exact plain_snoc h (by decide)
  · exact h

/-! ## The constructed mapper -/

theorem fold_attr2spec : ∀ (l : List (Name × Nat)) (m : Mapper), (l.foldl (fun m p => mapSpec m p.1 p.2) m).attr2spec = assign m.attr2spec l ∧
    (l.foldl (fun m p => mapSpec m p.1 p.2) m).carg2spec = assign m.carg2spec l ∧
    (l.foldl (fun m p => mapSpec m p.1 p.2) m).spec2attr = assign m.spec2attr (l.map Prod.swap) ∧
    (l.foldl (fun m p => mapSpec m p.1 p.2) m).spec2carg = assign m.spec2carg (l.map Prod.swap)
  | [], _ => ⟨rfl, rfl, rfl, rfl⟩
  | p :: l, m => fold_attr2spec l (mapSpec m p.1 p.2)

theorem assign_self {K V : Type} [DecidableEq K] {d : Dict K V} (h : (Dict.keys d).Nodup) (k : K) : Dict.get? (assign [] d) k = Dict.get? d k := by
  apply Option.ext
  intro v
  rw [assign_iff (fun k v w h1 h2 => by
    have e1 := Dict.get?_of_mem h h1
    have e2 := Dict.get?_of_mem h h2
    rw [e1] at e2
    exact Option.some.inj e2)]
  exact ⟨Dict.get?_of_mem h, Dict.mem_of_get?⟩

theorem attrNames_nodup (n : Node) : (Dict.keys (attrNames n)).Nodup := assign_nodup _ _ (by simp [Dict.keys])

theorem init_attr (n : Node) (k : Name) : getAttrSpec (init n) k = Dict.get? (attrNames n) k := by
  unfold getAttrSpec init
  rw [(fold_attr2spec _ _).1, assign_self (attrNames_nodup n)]

theorem init_carg (n : Node) (k : Name) : getCargSpec (init n) k = Dict.get? (attrNames n) k := by
  unfold getCargSpec init
  rw [(fold_attr2spec _ _).2.1, assign_self (attrNames_nodup n)]

theorem init_attribute (n : Node) (s : Nat) : getAttribute (init n) s = Dict.get? (assign [] ((attrNames n).map Prod.swap)) s := by
  unfold getAttribute init
  rw [(fold_attr2spec _ _).2.2.1]

theorem init_const_arg (n : Node) (s : Nat) : getCarg (init n) s = Dict.get? (assign [] ((attrNames n).map Prod.swap)) s := by
  unfold getCarg init
  rw [(fold_attr2spec _ _).2.2.2]

theorem mem_swap {l : Dict Name Nat} {s : Nat} {k : Name} : (s, k) ∈ l.map Prod.swap ↔ (k, s) ∈ l := by
  constructor
  · intro h
    obtain ⟨⟨a, b⟩, hx, e⟩ := List.mem_map.1 h
    cases e
    exact hx
  · intro h
    exact List.mem_map.2 ⟨(k, s), h, rfl⟩

theorem mem_attrNames {n : Node} {k : Name} {s : Nat} (h : (k, s) ∈ attrNames n) : ∃ p, At n p s ∧ join p = k :=
  (assignments_iff n k s).1 (assign_mem (Dict.get?_of_mem (attrNames_nodup n) h))

theorem attribute_iff {n : Node} (hid : ∀ p q i, At n p i → At n q i → p = q) (s : Nat) (k : Name) :
    Dict.get? (assign [] ((attrNames n).map Prod.swap)) s = some k ↔ Dict.get? (attrNames n) k = some s := by
  rw [assign_iff, mem_swap]
  · exact ⟨Dict.get?_of_mem (attrNames_nodup n), Dict.mem_of_get?⟩
  · intro i k1 k2 h1 h2
    obtain ⟨p, hp, rfl⟩ := mem_attrNames (mem_swap.1 h1)
    obtain ⟨q, hq, rfl⟩ := mem_attrNames (mem_swap.1 h2)
    rw [hid p q i hp hq]

/-! ## Gathering -/

theorem gatherChain_flatten (cs : List (List Member)) (p : Procs) : cs.foldl gather p = gather p cs.flatten := by
  induction cs generalizing p with
  | nil => rfl
  | cons c cs ih =>
    rw [List.foldl_cons, ih]
    simp [gather]

theorem gather_cargs : ∀ (ms : List Member) (p : Procs) (a : String), (∀ m ∈ ms, m.mark ≠ some (true, a)) →
    Dict.get? (gather p ms).cargs a = Dict.get? p.cargs a
  | [], _, _, _ => rfl
  | m :: ms, p, a, h => by
    rw [show gather p (m :: ms) = gather (gatherOne p m) ms from rfl, gather_cargs ms _ a (fun x hx => h x (List.mem_cons_of_mem _ hx))]
    have hm := h m (by simp)
    unfold gatherOne
    split
    · rfl
    · rename_i b e
      exact Dict.get?_set_ne (fun e' => hm (by rw [e, e']))
    · rfl

theorem gather_attrs : ∀ (ms : List Member) (p : Procs) (a : String), (∀ m ∈ ms, m.mark ≠ some (false, a)) →
    Dict.get? (gather p ms).attrs a = Dict.get? p.attrs a
  | [], _, _, _ => rfl
  | m :: ms, p, a, h => by
    rw [show gather p (m :: ms) = gather (gatherOne p m) ms from rfl, gather_attrs ms _ a (fun x hx => h x (List.mem_cons_of_mem _ hx))]
    have hm := h m (by simp)
    unfold gatherOne
    split
    · rfl
    · rfl
    · rename_i b e
      exact Dict.get?_set_ne (fun e' => hm (by rw [e, e']))

end Verif.Names
