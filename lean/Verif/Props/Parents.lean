import Verif.Lemmas.Parents

/-!
# C183, C184: the parents of containers that are read
-/

namespace Verif.Parents
open Verif

/-- `p` is the nearest builder with a type above `c`. -/
def Nearest (E : Env) (c p : Nat) : Prop :=
  ∃ pre rest, (E c).above = pre ++ p :: rest ∧ (∀ q ∈ pre, (E q).typ = none) ∧ (E p).typ.isSome

theorem nearest_parentDt {E : Env} {c p : Nat} (h : Nearest E c p) : parentDt E (E c).above = some p := by
  obtain ⟨pre, rest, h1, h2, h3⟩ := h
  rw [h1]
  clear h1
  induction pre with
  | nil =>
    cases rest with
    | nil => rfl
    | cons q rest => simp [parentDt, h3]
  | cons a pre ih =>
    have ha := h2 a (List.mem_cons_self ..)
    have := ih fun q hq => h2 q (List.mem_cons_of_mem _ hq)
    cases pre with
    | nil => simpa [parentDt, ha] using this
    | cons b pre => simpa [parentDt, ha] using this

/-! ## Examples -/

/-- a builder without type, for numbers that are not used -/
def exNone : Node := { name := "", typ := none, cname := "", ctype := ("", "") }

/-- a group of type `t` -/
def exNode (name t : String) (above vals : List Nat) : Node :=
  { name := name, typ := some ("ns", t), above := above, vals := vals, cname := name, ctype := ("ns", t) }

/-- a group without type -/
def exGroup (name : String) (above : List Nat) : Node :=
  { name := name, typ := none, above := above, cname := name, ctype := ("", "") }

/-- root / group / x / c, and root / y with a link to c; y is constructed first -/
def exEnv : Env := fun
  | 0 => exNode "root" "Root" [] [3, 2]
  | 1 => exGroup "group" [0]
  | 2 => exNode "x" "X" [1, 0] [4]
  | 3 => exNode "y" "Y" [0] [4]
  | 4 => exNode "c" "C" [2, 1, 0] []
  | _ => exNone

theorem exFaithful : Faithful exEnv fun | 0 => 2 | 2 => 1 | 3 => 1 | _ => 0 := by
  constructor
  · intro b p rest h
    match b with
    | 0 => cases h
    | 1 => cases h; rfl
    | 2 => cases h; rfl
    | 3 => cases h; rfl
    | 4 => cases h; rfl
    | b + 5 => cases h
  · intro b
    match b with
    | 0 | 1 | 2 | 3 | 4 => rfl
    | b + 5 => rfl
  · intro b h
    match b with
    | 0 | 2 | 3 | 4 => rfl
    | 1 => cases h
    | b + 5 => cases h
  · intro b c h
    match b with
    | 0 =>
      rcases List.mem_cons.1 h with rfl | h
      · rfl
      · rw [List.mem_singleton.1 h]; rfl
    | 1 => cases h
    | 2 => rw [List.mem_singleton.1 h]; rfl
    | 3 => rw [List.mem_singleton.1 h]; rfl
    | 4 => cases h
    | b + 5 => cases h
  · intro p q hp hq h
    have key : ∀ b, (exEnv b).typ.isSome → b = 0 ∨ b = 2 ∨ b = 3 ∨ b = 4 := by
      intro b h
      match b with
      | 0 | 2 | 3 | 4 => simp
      | 1 => cases h
      | b + 5 => cases h
    rcases key p hp with rfl | rfl | rfl | rfl <;> rcases key q hq with rfl | rfl | rfl | rfl <;>
      first | rfl | exact absurd h (by decide +kernel)
  · intro b c h
    match b with
    | 0 =>
      rcases List.mem_cons.1 h with rfl | h
      · decide
      · rw [List.mem_singleton.1 h]; decide
    | 1 => cases h
    | 2 => rw [List.mem_singleton.1 h]; decide
    | 3 => rw [List.mem_singleton.1 h]; decide
    | 4 => cases h
    | b + 5 => cases h
  · intro c p hc _ h
    match c with
    | 0 => cases h
    | 1 => cases hc
    | 2 => cases h; decide
    | 3 => cases h; decide
    | 4 => cases h; decide
    | c + 5 => cases hc

/-! ## C183 -/

/-- **C183** After any builders have been constructed, in any order and with any links among them, the parent of a container
is the container of the nearest builder with a type above its own, if this one was constructed too. -/
theorem C183_parent_partial {E : Env} {rank : Nat → Nat} (hE : Faithful E rank) {n : Nat} {bs : List Nat}
    (hb : ∀ b ∈ bs, (E b).typ.isSome) {s : State} (h : constructAll E n {} bs = .ok s) {c p : Nat} (hc : c ∈ s.made)
    (hp : p ∈ s.made) (hcp : Nearest E c p) : s.par c = .cont p :=
  (Inv.all hE hb h).1.real c hc p hp (nearest_parentDt hcp)

/-- **C183** construction comes to an end, with all that is asked for and all that is in it or linked from it. -/
theorem C183_total {E : Env} {rank : Nat → Nat} (hE : Faithful E rank) {n : Nat} {bs : List Nat}
    (hb : ∀ b ∈ bs, (E b).typ.isSome) (hn : ∀ b ∈ bs, rank b < n) :
    ∃ s, constructAll E n {} bs = .ok s ∧ (∀ b ∈ bs, b ∈ s.made) ∧ ∀ p ∈ s.made, ∀ c ∈ (E p).vals, c ∈ s.made := by
  obtain ⟨s, h⟩ := (construct_total hE.rank n).2 bs {} hn
  exact ⟨s, h, (Inv.all hE hb h).2, (Inv.all hE hb h).1.closed⟩

/-- **C183** the parent stays a proxy if the container in which it is was not constructed, as for external links. -/
theorem C183_external_fails {E : Env} {rank : Nat → Nat} (hE : Faithful E rank) {n : Nat} {bs : List Nat}
    (hb : ∀ b ∈ bs, (E b).typ.isSome) {s : State} (h : constructAll E n {} bs = .ok s) {c p : Nat} (hc : c ∈ s.made)
    (hp : p ∉ s.made) (hcp : Nearest E c p) : ∃ cands, s.par c = .proxy (proxyB E p) cands := by
  rcases (Inv.all hE hb h).1.below c hc p (nearest_parentDt hcp) with h1 | ⟨-, h2⟩
  · exact h1
  · exact absurd h2 hp

/-- the link is met before the container of the group -/
example : (constructAll exEnv 3 {} [0]).map (fun s => (s.made, s.par 4, s.par 2)) =
    .ok ([4, 3, 2, 0], .cont 2, .cont 0) := by decide +kernel

example : Nearest exEnv 4 2 ∧ Nearest exEnv 2 0 :=
  ⟨⟨[], [1, 0], rfl, by simp, rfl⟩, ⟨[1], [], rfl, by simp [exEnv, exGroup], rfl⟩⟩

/-- a link into a group that is not constructed -/
example : (constructAll exEnv 3 {} [3]).map (fun s => (s.made, s.par 4)) =
    .ok ([4, 3], .proxy (proxyB exEnv 2) [3]) := by decide +kernel

/-- **C183** fails for containers of one type and name in two groups without type of the same container: the parent of what is
in one of them may become the other, if there is a link to it there. -/
theorem C183_same_name_fails :
    let E : Env := fun
      | 0 => exNode "root" "Root" [] [4, 3]
      | 1 => exGroup "acquisition" [0]
      | 2 => exGroup "stimulus" [0]
      | 3 => exNode "x" "X" [1, 0] [5]
      | 4 => exNode "x" "X" [2, 0] [5]
      | 5 => exNode "c" "C" [3, 1, 0] []
      | _ => exNone
    (constructAll E 5 {} [0]).map (fun s => (s.par 5, s.kids 3)) = .ok (.cont 4, []) := by decide +kernel

/-- **C183** fails for a container whose class gives it another name: what is in it keeps a proxy as parent and is not among
its children; no error is raised. -/
theorem C183_renamed_fails :
    let E : Env := fun
      | 0 => { exNode "root" "Root" [] [1] with cname := "file" }
      | 1 => exNode "x" "X" [0] []
      | _ => exNone
    (constructAll E 5 {} [0]).map (fun s => (s.par 1, s.kids 0)) =
      .ok (.proxy ⟨"file", ["root"], some ("ns", "Root")⟩ [0], []) := by decide +kernel

/-- **C183** and for a container whose class is registered for another type. -/
theorem C183_other_type_fails :
    let E : Env := fun
      | 0 => { exNode "root" "Root" [] [1] with ctype := ("ns", "Base") }
      | 1 => exNode "x" "X" [0] []
      | _ => exNone
    (constructAll E 5 {} [0]).map (fun s => (s.par 1, s.kids 0)) =
      .ok (.proxy ⟨"file", ["root"], some ("ns", "Root")⟩ [0], []) := by decide +kernel

/-! ## C184 -/

/-- **C184** Children are those containers whose parent is the container, whatever the names and types: there are no proxies
for `__resolve_parents` to find. -/
theorem C184_children {E : Env} {rank : Nat → Nat} (hr : ∀ b, ∀ c ∈ (E b).vals, rank c < rank b) {n : Nat} {bs : List Nat}
    {s : State} (h : constructAll E n {} bs = .ok s) {p c : Nat} (hc : c ∈ s.kids p) : s.par c = .cont p := by
  have hk : ∀ b ∈ bs, rank b < (bs.map rank).foldr max 0 + 1 := by
    clear h
    induction bs with
    | nil => simp
    | cons a bs ih =>
      intro b hb
      rw [List.map_cons, List.foldr_cons]
      rcases List.mem_cons.1 hb with rfl | hb
      · omega
      · have := ih b hb
        omega
  have := (construct_induct (P := fun s => Kids s ∧ ∀ p c, c ∈ s.kids p → c ∈ s.made) (Q := fun _ => True)
    (fun _ _ _ => trivial) (fun s b hP _ hb hv => by
      refine ⟨Kids.make hP.1 hP.2 hb, ?_⟩
      intro p c hc
      rw [make_made]
      refine List.mem_append_left _ ?_
      rcases adopts_kids_mem (s := { s with par := upd s.par b (firstPar E b) }) hc with h | h
      · exact hP.2 p c h
      · exact hv c h) rank hr n).2 bs {} s _ ⟨fun _ _ h => (by cases h), fun _ _ h => (by cases h)⟩ (fun _ _ => trivial) hk h
  exact this.1.1 p c hc

/-- **C184** and every container that has a container as its parent is among the children of that. -/
theorem C184_all_children {E : Env} {rank : Nat → Nat} (hr : ∀ b, ∀ c ∈ (E b).vals, rank c < rank b) {n : Nat} {bs : List Nat}
    {s : State} (h : constructAll E n {} bs = .ok s) {p c : Nat} (hc : s.par c = .cont p) : c ∈ s.kids p := by
  have hk : ∀ b ∈ bs, rank b < (bs.map rank).foldr max 0 + 1 := by
    clear h
    induction bs with
    | nil => simp
    | cons a bs ih =>
      intro b hb
      rw [List.map_cons, List.foldr_cons]
      rcases List.mem_cons.1 hb with rfl | hb
      · omega
      · have := ih b hb
        omega
  have hadopt : ∀ q (s : State) d, (∀ p c, s.par c = .cont p → c ∈ s.kids p) →
      ∀ p c, (adopt E q s d).par c = .cont p → c ∈ (adopt E q s d).kids p := by
    intro q s d hs p c
    have hnew : (upd s.par d (.cont q)) c = .cont p → c ∈ upd s.kids q (s.kids q ++ [d]) p := by
      intro h
      unfold upd at h ⊢
      by_cases hcd : c = d
      · rw [if_pos hcd] at h
        cases h
        subst hcd
        simp
      · rw [if_neg hcd] at h
        have := hs p c h
        by_cases hpq : p = q
        · subst hpq
          simp [this]
        · rw [if_neg hpq]
          exact this
    unfold adopt
    split
    · exact hs p c
    · exact hnew
    · split
      · exact hnew
      · intro h
        refine hs p c ?_
        simp only [upd] at h
        by_cases hcd : c = d
        · rw [if_pos hcd] at h; cases h
        · rw [if_neg hcd] at h; exact h
  have hadopts : ∀ q (l : List Nat) (s : State), (∀ p c, s.par c = .cont p → c ∈ s.kids p) →
      ∀ p c, (l.foldl (adopt E q) s).par c = .cont p → c ∈ (l.foldl (adopt E q) s).kids p := by
    intro q l
    induction l with
    | nil => exact fun s hs => hs
    | cons d l ih => exact fun s hs => ih _ (hadopt q s d hs)
  have := (construct_induct (E := E) (P := fun s => ∀ p c, s.par c = .cont p → c ∈ s.kids p) (Q := fun _ => True)
    (fun _ _ _ => trivial) (fun s b hP _ _ _ => by
      refine hadopts b (E b).vals { s with par := upd s.par b (firstPar E b) } ?_
      intro p c h
      refine hP p c ?_
      simp only [upd] at h
      by_cases hcb : c = b
      · rw [if_pos hcb] at h
        unfold firstPar at h
        split at h <;> cases h
      · rw [if_neg hcb] at h
        exact h) rank hr n).2 bs {} s _ (fun _ _ h => by cases h) (fun _ _ => trivial) hk h
  exact this.1 p c hc

example : (constructAll exEnv 3 {} [0]).map (fun s => (s.kids 0, s.kids 2, s.kids 3)) = .ok ([3, 2], [4], []) := by
  decide +kernel

example : ∀ b, ∀ c ∈ (exEnv b).vals, (match c with | 0 => 2 | 2 => 1 | 3 => 1 | _ => 0) < (match b with | 0 => 2 | 2 => 1 | 3 => 1 | _ => 0) :=
  exFaithful.rank

/-- **C184** The proxy of a container is that of its builder, at any time after construction, unless there is a link to a
builder that is in none. -/
theorem C184_proxy_partial {E : Env} {rank : Nat → Nat} (hE : Faithful E rank) {n : Nat} {bs : List Nat}
    (hb : ∀ b ∈ bs, (E b).typ.isSome) {s : State} (h : constructAll E n {} bs = .ok s)
    (hl : ∀ b, ∀ c ∈ (E b).vals, (E c).above ≠ []) {c m : Nat} (hc : c ∈ s.made) (hm : (E c).above.length < m) :
    proxyC E s m c = some (proxyB E c) := by
  have hI := (Inv.all hE hb h).1
  have loc : ∀ m c, c ∈ s.made → (E c).above.length < m → locC E s m c = some (proxyB E c).loc := by
    intro m
    induction m with
    | zero => intro c _ h; exact absurd h (Nat.not_lt_zero _)
    | succ m ih =>
      intro c hc hm
      have hloc := locB hE.chained c
      unfold locC
      cases hp : parentDt E (E c).above with
      | none =>
        rw [hp] at hloc
        simp only at hloc
        rcases hI.top c hc hp with h1 | ⟨q, -, h2⟩
        · rw [h1]
          simp only [hE.name, hloc]
        · exfalso
          have := hl q c h2
          match hx : (E c).above, this with
          | a :: l, _ =>
            rw [hx] at hp
            have : ∀ l a, parentDt E (a :: l) ≠ none := by
              intro l
              induction l with
              | nil => intro a; simp [parentDt]
              | cons b l ih =>
                intro a
                unfold parentDt
                split
                · simp
                · exact ih b
            exact this l a hp
      | some p =>
        rw [hp] at hloc
        simp only at hloc
        rcases hI.below c hc p hp with ⟨cs, h1⟩ | ⟨h1, h2⟩
        · rw [h1]
          simp only [hE.name, hloc]
        · rw [h1]
          have hlt := above_lt hE.chained (parentDt_mem hp)
          simp only [ih p h2 (by omega), Option.map_some, hE.name, hloc]
  unfold proxyC
  rw [loc m c hc hm, Option.map_some, ← hE.typ c (hI.typed c hc)]
  rfl

example : (constructAll exEnv 3 {} [0]).map (fun s => decide (proxyC exEnv s 4 4 = some (proxyB exEnv 4))) = .ok true := by
  decide +kernel

/-- **C184** fails: if no candidate fits, `resolve` raises a TypeError instead of the ValueError that it means to raise. -/
theorem C184_resolve_fails {E : Env} {s : State} {n : Nat} {pr : Proxy} {cands : List Nat}
    (h : ∀ c ∈ cands, proxyC E s n c ≠ some pr) : resolve E s n pr cands = .error .typeError := by
  unfold resolve
  rw [List.find?_eq_none.2 (by intro c hc; simpa using h c hc)]

/-- **C184** and otherwise it gives the first candidate that fits. -/
theorem C184_resolve_partial {E : Env} {s : State} {n : Nat} {pr : Proxy} {cands : List Nat} {c : Nat}
    (h : resolve E s n pr cands = .ok c) : c ∈ cands ∧ proxyC E s n c = some pr := by
  unfold resolve at h
  split at h
  · next hf =>
    cases h
    exact ⟨List.mem_of_find?_eq_some hf, by simpa using List.find?_some hf⟩
  · cases h

example : resolve exEnv {} 1 (proxyB exEnv 0) [2, 0] = .ok 0 ∧ resolve exEnv {} 1 (proxyB exEnv 2) [2, 0] = .error .typeError := by
  decide +kernel

end Verif.Parents
