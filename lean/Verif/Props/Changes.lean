import Verif.Model.Changes

/-!
# C171: what is exported is what the containers have
-/

namespace Verif.Changes
open Verif

variable {F : Type}

mutual

/-- what the containers have, as seen by someone who looks at them -/
def fresh : T F → B F
  | .node f _ _ cs => .node f (freshs cs)

/-- the same for many -/
def freshs : List (T F) → List (B F)
  | [] => []
  | t :: ts => fresh t :: freshs ts

end

mutual

/-- a container that is not modified has the builder that would be made for it, if it has one -/
def Good : T F → Prop
  | .node f m b cs => (m = false → ∀ b', b = some b' → b' = .node f (freshs cs)) ∧ Goods cs

/-- the same for many -/
def Goods : List (T F) → Prop
  | [] => True
  | t :: ts => Good t ∧ Goods ts

end

mutual

theorem export_good : ∀ {t : T F}, Good t → «export» t = fresh t
  | .node f false (some b) cs, h => by
    unfold «export» fresh
    exact h.1 rfl b rfl
  | .node f false none cs, h => by
    unfold «export» fresh
    rw [exports_good h.2]
  | .node f true b cs, h => by
    unfold «export» fresh
    rw [exports_good h.2]

theorem exports_good : ∀ {ts : List (T F)}, Goods ts → exports ts = freshs ts
  | [], _ => rfl
  | t :: ts, h => by
    unfold exports freshs
    rw [export_good h.1, exports_good h.2]

end

mutual

theorem fresh_ofBuilder : ∀ (b : B F), fresh (ofBuilder b) = b
  | .node f cs => by
    unfold ofBuilder fresh
    rw [freshs_ofBuilders cs]

theorem freshs_ofBuilders : ∀ (bs : List (B F)), freshs (ofBuilders bs) = bs
  | [] => rfl
  | b :: bs => by
    unfold ofBuilders freshs
    rw [fresh_ofBuilder b, freshs_ofBuilders bs]

end

mutual

theorem good_ofBuilder : ∀ (b : B F), Good (ofBuilder b)
  | .node f cs => by
    unfold ofBuilder Good
    refine ⟨fun _ b' e => ?_, goods_ofBuilders cs⟩
    cases e
    rw [freshs_ofBuilders]

theorem goods_ofBuilders : ∀ (bs : List (B F)), Goods (ofBuilders bs)
  | [] => trivial
  | b :: bs => ⟨good_ofBuilder b, goods_ofBuilders bs⟩

end

mutual

theorem fresh_keep : ∀ (t : T F), fresh (keep t) = fresh t
  | .node f false (some b) cs => by unfold keep; rfl
  | .node f false none cs => by unfold keep fresh; rw [freshs_keeps cs]
  | .node f true b cs => by unfold keep fresh; rw [freshs_keeps cs]

theorem freshs_keeps : ∀ (ts : List (T F)), freshs (keeps ts) = freshs ts
  | [] => rfl
  | t :: ts => by unfold keeps freshs; rw [fresh_keep t, freshs_keeps ts]

end

mutual

theorem good_keep : ∀ {t : T F}, Good t → Good (keep t)
  | .node f false (some b) cs, h => by unfold keep; exact h
  | .node f false none cs, h => by
    unfold keep Good
    refine ⟨fun _ b' e => ?_, goods_keeps h.2⟩
    cases e
    rw [freshs_keeps, exports_good h.2]
  | .node f true b cs, h => by
    unfold keep Good
    exact ⟨fun e => (by cases e), goods_keeps h.2⟩

theorem goods_keeps : ∀ {ts : List (T F)}, Goods ts → Goods (keeps ts)
  | [], _ => trivial
  | t :: ts, h => ⟨good_keep h.1, goods_keeps h.2⟩

end

mutual

theorem fresh_clear : ∀ (t : T F), fresh (clear t) = fresh t
  | .node f m b cs => by unfold clear fresh; rw [freshs_clears cs]

theorem freshs_clears : ∀ (ts : List (T F)), freshs (clears ts) = freshs ts
  | [] => rfl
  | t :: ts => by unfold clears freshs; rw [fresh_clear t, freshs_clears ts]

end

mutual

theorem good_clear : ∀ (t : T F), Good (clear t)
  | .node f m b cs => by
    unfold clear Good
    exact ⟨fun _ b' e => (by cases e), goods_clears cs⟩

theorem goods_clears : ∀ (ts : List (T F)), Goods (clears ts)
  | [] => trivial
  | t :: ts => ⟨good_clear t, goods_clears ts⟩

end

mutual

theorem good_renew (g : F → F) : ∀ (t : T F), Good (renew g t)
  | .node f m b cs => by
    unfold renew Good
    exact ⟨fun e => (by cases e), goods_renews g cs⟩

theorem goods_renews (g : F → F) : ∀ (ts : List (T F)), Goods (renews g ts)
  | [] => trivial
  | t :: ts => ⟨good_renew g t, goods_renews g ts⟩

end

theorem goods_iff {ts : List (T F)} : Goods ts ↔ ∀ t ∈ ts, Good t := by
  induction ts with
  | nil => simp [Goods]
  | cons t ts ih => simp [Goods, ih]

theorem good_of_get : ∀ {p : List Nat} {t t' : T F}, Good t → get p t = some t' → Good t'
  | [], t, t', h, e => by cases e; exact h
  | i :: p, .node f m b cs, t', h, e => by
    unfold get at e
    split at e
    · cases e
    · rename_i c hc
      exact good_of_get (goods_iff.1 h.2 c (List.mem_of_getElem? hc)) e

/-- a change that is marked, of a container that is right afterwards, leaves all of them right -/
theorem good_change {g : T F → T F} : ∀ {p : List Nat} {t : T F}, Good t → (∀ t', get p t = some t' → Good (g t')) → Good (change g true p t)
  | [], t, _, hg => hg t rfl
  | i :: p, .node f m b cs, h, hg => by
    unfold change Good
    rw [Bool.or_true]
    refine ⟨fun e => (by cases e), goods_iff.2 fun t ht => ?_⟩
    obtain ⟨k, hk, e⟩ := List.getElem_of_mem ht
    rw [List.getElem_modify] at e
    have hlen : k < cs.length := by rw [List.length_modify] at hk; exact hk
    have hck : Good cs[k] := goods_iff.1 h.2 _ (List.getElem_mem hlen)
    split at e
    · rename_i hik
      rw [← e]
      refine good_change hck (fun t' ht' => hg t' ?_)
      unfold get
      rw [hik, List.getElem?_eq_getElem hlen]
      exact ht'
    · rw [← e]; exact hck

/-- the containers from the root to the end of the path are all marked -/
def Hot : List Nat → T F → Prop
  | [], .node _ m _ _ => m = true
  | i :: p, .node _ m _ cs => m = true ∧ ∀ c, cs[i]? = some c → Hot p c

/-- changes that are marked, or of containers that are already; containers that are added are right -/
def Safe (t : T F) : Op F → Prop
  | .setField p _ => Hot p t
  | .add _ c => Good c
  | _ => True

/-- the same for a history -/
def Safes (t : T F) : List (Op F) → Prop
  | [] => True
  | o :: os => Safe t o ∧ Safes (step t o) os

theorem hot_change {g : F → F} : ∀ {p : List Nat} {t : T F}, Good t → Hot p t → Good (change (setFields g) false p t)
  | [], .node f m b cs, h, hh => by
    have hh : m = true := hh
    subst hh
    unfold change setFields Good
    exact ⟨fun e => (by cases e), h.2⟩
  | i :: p, .node f m b cs, h, hh => by
    obtain ⟨hm, hh⟩ := hh
    subst hm
    unfold change Good
    refine ⟨fun e => (by cases e), goods_iff.2 fun t ht => ?_⟩
    obtain ⟨k, hk, e⟩ := List.getElem_of_mem ht
    rw [List.getElem_modify] at e
    have hlen : k < cs.length := by rw [List.length_modify] at hk; exact hk
    have hck : Good cs[k] := goods_iff.1 h.2 _ (List.getElem_mem hlen)
    split at e
    · rename_i hik
      rw [← e]
      subst hik
      exact hot_change hck (hh _ (List.getElem?_eq_getElem hlen))
    · rw [← e]; exact hck

theorem good_step {t : T F} (h : Good t) {o : Op F} (hs : Safe t o) : Good (step t o) := by
  cases o with
  | setField p g =>
    unfold step; simp only; split
    · exact hot_change h hs
    · exact h
  | mark p =>
    unfold step; simp only; split
    · refine good_change h (fun t' e => ?_)
      have := good_of_get h e
      cases t'
      unfold setModified Good
      exact ⟨fun e => (by cases e), this.2⟩
    · exact h
  | add p c =>
    unfold step; simp only; split
    · refine good_change h (fun t' e => ?_)
      have := good_of_get h e
      cases t' with
      | node f m b cs =>
        unfold addChild Good
        refine ⟨fun e => (by cases e), goods_iff.2 fun x hx => ?_⟩
        rcases List.mem_append.1 hx with h1 | h1
        · exact goods_iff.1 this.2 x h1
        · rw [List.mem_singleton] at h1; rw [h1]; exact hs
    · exact h
  | remove p i =>
    unfold step; simp only; split
    · refine good_change h (fun t' e => ?_)
      have := good_of_get h e
      cases t' with
      | node f m b cs =>
        unfold removeChild Good
        exact ⟨fun e => (by cases e), goods_iff.2 fun x hx => goods_iff.1 this.2 x (List.mem_of_mem_eraseIdx hx)⟩
    · exact h
  | newId p g =>
    unfold step; simp only; split
    · exact good_change h (fun t' _ => good_renew g t')
    · exact h
  | «export» => exact good_keep h
  | clear => exact good_clear t

theorem good_run : ∀ {os : List (Op F)} {t : T F}, Good t → Safes t os → Good (run t os)
  | [], _, h, _ => h
  | o :: os, t, h, hs => by
    show Good (run (step t o) os)
    exact good_run (good_step h hs.1) hs.2

/-- whatever is done to what has been read, an export writes what the containers have, as long as only attributes and data of containers are changed that
are marked as modified, as are those above them -/
theorem C171_export_partial (b : B F) (os : List (Op F)) (h : Safes (ofBuilder b) os) : «export» (run (ofBuilder b) os) = fresh (run (ofBuilder b) os) :=
  export_good (good_run (good_ofBuilder b) h)

/-- a file in which a group `1` has the groups `2` and `3` -/
def exB : B Nat := .node 1 [.node 2 [], .node 3 [.node 4 []]]

example : Safes (ofBuilder exB) [.add [1] (.node 7 true none []), .setField [1] (· + 10), .export, .remove [] 0, .mark [0, 0], .setField [0, 0] (· + 1)] ∧
    fresh (run (ofBuilder exB) [.add [1] (.node 7 true none []), .setField [1] (· + 10), .export, .remove [] 0, .mark [0, 0], .setField [0, 0] (· + 1)]) =
      .node 1 [.node 13 [.node 5 [], .node 7 []]] := by
  refine ⟨⟨⟨fun e => (by cases e), trivial⟩, ⟨rfl, fun c hc => ?_⟩, trivial, trivial, trivial, ⟨rfl, fun c hc => ?_⟩, trivial⟩, rfl⟩
  · cases hc; exact rfl
  · cases hc; exact ⟨rfl, fun c hc => (by cases hc; rfl)⟩

/-- nothing done to it: what is exported is what was read -/
theorem C171_unchanged (b : B F) : «export» (ofBuilder b) = b := by rw [export_good (good_ofBuilder b), fresh_ofBuilder]

example : «export» (ofBuilder exB) = exB := C171_unchanged exB

/-- if the manager has been cleared, as for `link_data=False`, an export writes what the containers have, whatever has been done before -/
theorem C171_cleared (t : T F) : «export» (clear t) = fresh t := by rw [export_good (good_clear t), fresh_clear]

example : «export» (clear (run (ofBuilder exB) [.setField [1] (· + 10)])) = .node 1 [.node 2 [], .node 13 [.node 4 []]] := C171_cleared _

/-- an attribute that is set after reading is not exported, nor the data of a dataset -/
theorem C171_set_fails : fresh (run (ofBuilder exB) [.setField [1] (· + 10)]) = .node 1 [.node 2 [], .node 13 [.node 4 []]] ∧
    «export» (run (ofBuilder exB) [.setField [1] (· + 10)]) = exB := ⟨rfl, rfl⟩

end Verif.Changes
