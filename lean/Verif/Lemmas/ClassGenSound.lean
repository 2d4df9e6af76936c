import Verif.Lemmas.ClassGenName

/-! # What a constructor that succeeds says about the arguments -/

namespace Verif.ClassGen
open Verif

variable {V : Type}

/-- the name required, and names of their own for many containers -/
def Sound : Prop' → Val V → Prop
  | .plain (some r), v => v = .none ∨ ∃ w, v = .one w (some r)
  | .multi, .many cs => (cs.map (fun c => c.1)).Nodup
  | _, _ => True

theorem addNames_nodup : ∀ {cs : List (String × V)} {d d' : Dict String V}, addNames d cs = .ok d' →
    (cs.map (fun c => c.1)).Nodup ∧ ∀ c ∈ cs, c.1 ∉ Dict.keys d
  | [], _, _, _ => ⟨List.nodup_nil, by simp⟩
  | (n, v) :: cs, d, d', h => by
    unfold addNames at h
    split at h
    · cases h
    · rename_i hn
      obtain ⟨h1, h2⟩ := addNames_nodup h
      have hn : n ∉ Dict.keys d := fun hk => hn (Dict.has_iff.2 hk)
      rw [Dict.set_of_not_mem hn] at h2
      refine ⟨?_, ?_⟩
      · rw [List.map_cons, List.nodup_cons]
        refine ⟨?_, h1⟩
        intro hm
        obtain ⟨c, hc, e⟩ := List.mem_map.1 hm
        exact h2 c hc (by simp [Dict.keys, e])
      · intro c hc
        rcases List.mem_cons.1 hc with e | hc
        · rw [e]; exact hn
        · intro hk
          exact h2 c hc (by simp only [Dict.keys, List.map_append, List.mem_append] at hk ⊢; exact .inl hk)

theorem addList_nodup {st st' : St V} {x : String} {cs : List (String × V)} (h : addList st x cs = .ok st') : (cs.map (fun c => c.1)).Nodup := by
  unfold addList at h
  split at h
  · cases h
  · rename_i d hd; exact (addNames_nodup hd).1

theorem setField_sound {self : Cls V} {st st' : St V} {x : String} {v : Val V} {q : Prop'} (hq : lookup self x = some q)
    (h : setField self st x v = .ok st') : Sound q v := by
  unfold setField at h
  rw [hq] at h
  cases q with
  | readonly => trivial
  | plain r =>
    cases r with
    | none => trivial
    | some r =>
      simp only at h
      cases v with
      | none => exact .inl rfl
      | many cs => simp [nameOk] at h
      | one w n =>
        simp only [Bool.false_eq_true, if_false] at h
        split at h
        · rename_i hn
          unfold nameOk at hn
          cases n with
          | none => cases hn
          | some n =>
            have : n = r := by simpa using hn
            subst this
            exact .inr ⟨w, rfl⟩
        · cases h
  | multi =>
    cases v with
    | none => trivial
    | one w n => trivial
    | many cs => exact addList_nodup h

theorem setLoop_sound {self : Cls V} : ∀ {xs : List (String × Val V)} {st st' : St V}, setLoop self xs st = .ok st' →
    ∀ p ∈ xs, ∀ q, lookup self p.1 = some q → Sound q p.2
  | [], st, st', _, p, hp, _, _ => by cases hp
  | (x, v) :: xs, st, st', h, p, hp, q, hq => by
    unfold setLoop at h
    split at h
    · cases h
    · rename_i st1 h1
      rcases List.mem_cons.1 hp with e | hp
      · rw [e] at hq ⊢; exact setField_sound hq h1
      · exact setLoop_sound h p hp q hq

theorem addLoop_sound {kw : Dict String (Val V)} : ∀ {xs : List String} {st st' : St V}, addLoop kw xs st = .ok st' →
    ∀ x ∈ xs, ∀ cs, Dict.get? kw x = some (.many cs) → (cs.map (fun c => c.1)).Nodup
  | [], st, st', _, x, hx, _, _ => by cases hx
  | y :: xs, st, st', h, x, hx, cs, hk => by
    unfold addLoop at h
    rcases List.mem_cons.1 hx with e | hx
    · subst e
      rw [hk] at h
      simp only at h
      split at h
      · cases h
      · rename_i st1 h1; exact addList_nodup h1
    · split at h
      · exact addLoop_sound h x hx cs hk
      · exact addLoop_sound h x hx cs hk
      · split at h
        · cases h
        · exact addLoop_sound h x hx cs hk

theorem body_sound {post : Bool} {self : Cls V} {base : Dict String (Val V) → St V → Except Err (St V)} {p : Cls V} {s : TSpec V} (hc : Clean (.gen p s))
    {kw : Dict String (Val V)} {skip : Bool} {st st' : St V} (hl : ∀ q ∈ declared (.gen p s), lookup self q.1 = some (propOf q.2))
    (h : body post self base p.argNames s kw skip st = .ok st') {x : String} {f : FSpec V} (hf : (x, f) ∈ newFields s) (hv : f.value = none)
    {v : Val V} (hk : Dict.get? kw x = some v) : Sound (propOf f) v := by
  unfold body at h
  split at h
  · cases h
  · split at h
    · cases h
    · rename_i st2 h2
      have := setLoop_sound h2 (x, (Dict.get? (forceName s.name kw) x).getD .none) (List.mem_map.2 ⟨x, (mem_attrsToSet hc).2 ⟨f, hf, hv⟩, rfl⟩) (propOf f)
        (hl _ (List.mem_append.2 (.inr hf)))
      simp only at this
      rw [get_forceName] at this
      have hne := new_name_ne hc hf
      cases hs : s.name with
      | none => rw [hs] at this; simp only at this; rw [hk] at this; exact this
      | some w => rw [hs] at this; simp only [hne, if_false] at this; rw [hk] at this; exact this

theorem init_sound {common post : Bool} {self : Cls V} : ∀ {c : Cls V} {kw : Dict String (Val V)} {skip : Bool} {st st' : St V}, Clean c →
    (∀ q ∈ declared c, lookup self q.1 = some (propOf q.2)) → init common post self c kw skip st = .ok st' →
    ∀ x f, (x, f) ∈ declared c → f.value = none → Sound (propOf f) (bound kw x f)
  | .container, kw, skip, st, st', _, _, _, x, f, hf, _ => by cases hf
  | .gen p s, kw, skip, st, st', hc, hl, h, x, f, hf, hv => by
    have hlp : ∀ q ∈ declared p, lookup self q.1 = some (propOf q.2) := fun q hq => hl q (List.mem_append.2 (.inl hq))
    unfold init at h
    split at h
    · cases h
    · rename_i b hb
      have hbx := bind_bound hc hb hf hv
      split at h
      · rcases List.mem_append.1 hf with hp | hn
        · obtain ⟨st1, h1, -, -⟩ := body_same h
          have := init_sound hc.parent hlp h1 x f hp hv
          rw [pass, pass_bound hc hp hv hbx] at this
          exact this
        · exact body_sound hc hl h hn hv hbx
      · split at h
        · cases h
        · split at h
          · cases h
          · rename_i b' hb'
            have hb'x : Dict.get? b' x = some (if (manyFields s).contains x then (if bound kw x f matches .none then .none else .many []) else bound kw x f) := by
              rw [bind_bound hc hb' hf hv, bound, get_emptied, hbx]
              rfl
            split at h
            · cases h
            · rename_i st1' hbody
              split at h
              · cases h
              · rename_i st2 hadd
                rcases List.mem_append.1 hf with hp | hn
                · have hm : x ∉ manyFields s := fun hx => by
                    obtain ⟨g, hg, -⟩ := mem_manyFields.1 hx
                    exact hc.disjoint hg (List.mem_map.2 ⟨_, hp, rfl⟩)
                  obtain ⟨st1, h1, -, -⟩ := body_same hbody
                  have := init_sound hc.parent hlp h1 x f hp hv
                  rw [pass, pass_bound hc hp hv hb'x] at this
                  simpa [hm] using this
                · cases hm : f.many with
                  | true =>
                    have hmem : x ∈ manyFields s := mem_manyFields.2 ⟨f, hn, hm⟩
                    unfold propOf
                    rw [hm]
                    simp only [if_true]
                    cases hg : bound kw x f with
                    | none => trivial
                    | one _ _ => trivial
                    | many cs => exact addLoop_sound hadd x hmem cs (by rw [hbx, hg])
                  | false =>
                    have hmem : x ∉ manyFields s := fun hx => by
                      obtain ⟨g, hg, e⟩ := mem_manyFields.1 hx
                      have := declared_unique hc (List.mem_append.2 (.inr hg)) hf
                      subst this
                      rw [hm] at e
                      cases e
                    have := body_sound hc hl hbody hn hv hb'x
                    simpa [hmem] using this

end Verif.ClassGen
