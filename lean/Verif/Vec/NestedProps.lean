import Verif.Vec.Nested
import Verif.Vec.ExchangeProps
import Mathlib.Data.List.Forall2

/-!
# C162: vertices given and shown as nested lists
-/

namespace Karta.Nest
open Karta

/-! ### Specification -/

/-- A vertex: a list or tuple of numbers. -/
def vertex (tuple : Bool) (qs : List ℚ) : Val := .seq tuple (qs.map .num)

/-- `Nested v ls`: `v` is a vertex, or a list of such things to any depth, no list being empty; `ls` are its vertices in reading order. -/
inductive Nested : Val → List (List ℚ) → Prop where
  | vertex (t : Bool) (q : ℚ) (qs : List ℚ) : Nested (vertex t (q :: qs)) [q :: qs]
  | list (t : Bool) (vs : List Val) (ls : List (List (List ℚ))) (hne : vs ≠ []) (hlen : vs.length = ls.length)
      (h : ∀ i (hi : i < vs.length), Nested vs[i] (ls[i]'(hlen ▸ hi))) : Nested (.seq t vs) ls.flatten

/-- The values are these vertices, each as a list or a tuple. -/
def Are (vs : List Val) (ls : List (List ℚ)) : Prop := List.Forall₂ (fun v l => ∃ t, v = vertex t l) vs ls

mutual
/-- The same value with lists for tuples. -/
def Val.listed : Val → Val
  | .num q => .num q
  | .seq _ vs => .seq false (listedAll vs)
/-- Every value of a list. -/
def listedAll : List Val → List Val
  | [] => []
  | v :: vs => v.listed :: listedAll vs
end

/-! ### Lemmas -/

theorem listedAll_nums (qs : List ℚ) : listedAll (qs.map .num) = qs.map .num := by
  induction qs with
  | nil => rw [List.map_nil, listedAll]
  | cons q qs ih => rw [List.map_cons, listedAll, ih, Val.listed]

theorem iterable_of_nested {v : Val} {ls : List (List ℚ)} (h : Nested v ls) : v.iterable = true := by
  cases h <;> rfl

/-- Pairs of items and their vertices, as a relation between lists. -/
theorem forall₂_of_get {vs : List Val} {ls : List (List (List ℚ))} (hlen : vs.length = ls.length)
    (h : ∀ i (hi : i < vs.length), Nested vs[i] (ls[i]'(hlen ▸ hi))) : List.Forall₂ Nested vs ls :=
  List.forall₂_iff_get.2 ⟨hlen, fun i h1 h2 => h i h1⟩

theorem flatten_of {P : Val → List (List ℚ) → Prop} {vs : List Val} {ls : List (List (List ℚ))} (h : List.Forall₂ P vs ls)
    (hP : ∀ v l, P v l → ∃ out, flattenItem v = .ok out ∧ Are out l) : ∃ out, flatten vs = .ok out ∧ Are out ls.flatten := by
  induction h with
  | nil => exact ⟨[], by rw [flatten], .nil⟩
  | cons hv _ ih =>
    obtain ⟨a, h1, h2⟩ := hP _ _ hv
    obtain ⟨b, h3, h4⟩ := ih
    refine ⟨a ++ b, by rw [flatten, h1]; dsimp only; rw [h3], ?_⟩
    rw [List.flatten_cons]
    exact List.rel_append h2 h4

theorem flattenItem_ok {v : Val} {ls : List (List ℚ)} (h : Nested v ls) : ∃ out, flattenItem v = .ok out ∧ Are out ls := by
  induction h with
  | vertex t q qs =>
    refine ⟨[vertex t (q :: qs)], ?_, .cons ⟨t, rfl⟩ .nil⟩
    unfold vertex
    rw [List.map_cons, flattenItem, if_neg (by simp [Val.iterable])]
  | list t vs ls hne hlen h ih =>
    obtain ⟨out, h1, h2⟩ := flatten_of (P := fun v l => ∃ out, flattenItem v = .ok out ∧ Are out l) (vs := vs) (ls := ls)
      (List.forall₂_iff_get.2 ⟨hlen, fun i h1 h2 => ih i h1⟩) (fun _ _ h => h)
    obtain ⟨w, ws, rfl⟩ := List.exists_cons_of_ne_nil hne
    refine ⟨out, ?_, h2⟩
    have hw : w.iterable = true := iterable_of_nested (h 0 (by simp))
    rw [flattenItem, if_pos hw, h1]

theorem nestAll_of {vs : List Val} (h : ∀ v ∈ vs, nestItem v = .ok v.listed) : nestAll vs = .ok (listedAll vs) := by
  induction vs with
  | nil => rw [nestAll, listedAll]
  | cons v vs ih => rw [nestAll, h v (by simp)]; dsimp only; rw [ih (fun w hw => h w (by simp [hw])), listedAll]

theorem nestItem_ok {v : Val} {ls : List (List ℚ)} (h : Nested v ls) : nestItem v = .ok v.listed := by
  induction h with
  | vertex t q qs =>
    unfold vertex
    rw [List.map_cons, nestItem, if_neg (by simp [Val.iterable]), Val.listed, ← List.map_cons, listedAll_nums]
  | list t vs ls hne hlen h ih =>
    have hall : nestAll vs = .ok (listedAll vs) := nestAll_of fun v hv => by
      obtain ⟨i, hi, rfl⟩ := List.getElem_of_mem hv
      exact ih i hi
    obtain ⟨w, ws, rfl⟩ := List.exists_cons_of_ne_nil hne
    have hw : w.iterable = true := iterable_of_nested (h 0 (by simp))
    rw [nestItem, if_pos hw, hall, Val.listed]

theorem listed_nested {v : Val} {ls : List (List ℚ)} (h : Nested v ls) : Nested v.listed ls := by
  induction h with
  | vertex t q qs =>
    unfold vertex
    rw [Val.listed, listedAll_nums]
    exact .vertex false q qs
  | list t vs ls hne hlen h ih =>
    have hl : ∀ us : List Val, listedAll us = us.map Val.listed := by
      intro us
      induction us with
      | nil => rw [listedAll]; rfl
      | cons u us ih => rw [listedAll, ih]; rfl
    rw [Val.listed, hl]
    exact .list false _ ls (by simpa using hne) (by simpa using hlen) fun i hi => by
      rw [List.getElem_map]; exact ih i (by simpa using hi)

/-! ### C162 -/

/-- C162: vertices nested to any depth are taken in reading order. -/
theorem C162_taken_partial (vs : List Val) (ls : List (List (List ℚ))) (h : List.Forall₂ Nested vs ls) :
    ∃ out, fromVertices vs = .ok out ∧ Are out ls.flatten := by
  unfold fromVertices
  by_cases h0 : vs.length = 0
  · rw [if_pos h0]
    have := List.length_eq_zero_iff.1 h0
    subst this
    cases h
    exact ⟨[], rfl, .nil⟩
  · rw [if_neg h0]
    exact flatten_of h fun _ _ => flattenItem_ok

/-- C162: coordinates are shown with the structure of the vertices, as lists all through. -/
theorem C162_shown_partial (vs : List Val) (ls : List (List (List ℚ))) (h : List.Forall₂ Nested vs ls) :
    nestAll vs = .ok (listedAll vs) :=
  nestAll_of fun v hv => by
    obtain ⟨i, hi, rfl⟩ := List.getElem_of_mem hv
    exact nestItem_ok ((List.forall₂_iff_get.1 h).2 i hi ((List.forall₂_iff_get.1 h).1 ▸ hi))

/-- C162: coordinates shown and taken again give the same vertices. -/
theorem C162_again_partial (vs : List Val) (ls : List (List (List ℚ))) (h : List.Forall₂ Nested vs ls) :
    ∃ ws out, nestAll vs = .ok ws ∧ fromVertices ws = .ok out ∧ Are out ls.flatten := by
  refine ⟨listedAll vs, ?_⟩
  have hs := C162_shown_partial vs ls h
  have h' : List.Forall₂ Nested (listedAll vs) ls := by
    clear hs
    induction h with
    | nil => rw [listedAll]; exact .nil
    | cons hv _ ih => rw [listedAll]; exact .cons (listed_nested hv) ih
  obtain ⟨out, h1, h2⟩ := C162_taken_partial _ ls h'
  exact ⟨out, hs, h1, h2⟩

theorem flatten_error {as : List Val} {ls : List (List (List ℚ))} (h : List.Forall₂ Nested as ls) (v : Val) (e : Err) (he : flattenItem v = .error e)
    (bs : List Val) : flatten (as ++ v :: bs) = .error e := by
  induction h with
  | nil => rw [List.nil_append, flatten, he]
  | cons ha _ ih =>
    obtain ⟨out, h1, _⟩ := flattenItem_ok ha
    rw [List.cons_append, flatten, h1]
    dsimp only
    rw [ih]

theorem nestAll_error {as : List Val} {ls : List (List (List ℚ))} (h : List.Forall₂ Nested as ls) (v : Val) (e : Err) (he : nestItem v = .error e)
    (bs : List Val) : nestAll (as ++ v :: bs) = .error e := by
  induction h with
  | nil => rw [List.nil_append, nestAll, he]
  | cons ha _ ih =>
    rw [List.cons_append, nestAll, nestItem_ok ha]
    dsimp only
    rw [ih]

/-- An empty part among the others raises `IndexError` wherever it is: neither taken nor shown. -/
theorem C162_violated_empty (as bs : List Val) (ls : List (List (List ℚ))) (t : Bool) (h : List.Forall₂ Nested as ls) :
    fromVertices (as ++ .seq t [] :: bs) = .error .indexError ∧ nestAll (as ++ .seq t [] :: bs) = .error .indexError := by
  refine ⟨?_, nestAll_error h _ _ (by rw [nestItem]) bs⟩
  unfold fromVertices
  rw [if_neg (by simp)]
  exact flatten_error h _ _ (by rw [flattenItem]) bs

/-- Of two ways to write one vertex only the nested one is understood: a bare vertex raises `TypeError`. -/
theorem C162_bare (q : ℚ) (qs : List ℚ) : fromVertices ((q :: qs).map .num) = .error .typeError := by
  unfold fromVertices
  rw [if_neg (by simp), List.map_cons, flatten, flattenItem]

/-! ### The export of multilines -/

/-- The parts of a multiline, as its coordinate strings are read. -/
def ofLines (vs : List (List (List ℚ))) : List Val := vs.map fun l => .seq false (l.map (vertex true))

theorem nested_line {l : List (List ℚ)} (hne : l ≠ []) (hv : ∀ v ∈ l, v ≠ []) : Nested (.seq false (l.map (vertex true))) l := by
  have : Nested (.seq false (l.map (vertex true))) (l.map fun v => [v]).flatten := by
    refine .list false _ (l.map fun v => [v]) (by simpa using hne) (by simp) fun i hi => ?_
    rw [List.getElem_map, List.getElem_map]
    have hi' : i < l.length := by simpa using hi
    obtain ⟨q, qs, hq⟩ := List.exists_cons_of_ne_nil (hv l[i] (List.getElem_mem hi'))
    rw [hq]
    exact .vertex true q qs
  have e : (l.map fun v => [v]).flatten = l := by
    clear this hne hv
    induction l with
    | nil => rfl
    | cons a l ih => rw [List.map_cons, List.flatten_cons, ih]; rfl
  rwa [e] at this

/-- The function agrees with the one used for multilines in the model of the exchange formats: it succeeds exactly if no part is empty. -/
theorem nestAll_ofLines (vs : List (List (List ℚ))) (hv : ∀ l ∈ vs, ∀ v ∈ l, v ≠ []) :
    (Exch.nested vs = .ok vs ∧ nestAll (ofLines vs) = .ok (listedAll (ofLines vs))) ∨
    (Exch.nested vs = .error .indexError ∧ nestAll (ofLines vs) = .error .indexError) := by
  by_cases hm : [] ∈ vs
  · right
    refine ⟨Exch.nested_empty hm, ?_⟩
    induction vs with
    | nil => cases hm
    | cons l vs ih =>
      unfold ofLines
      rw [List.map_cons, nestAll]
      by_cases hl : l = []
      · subst hl
        rw [List.map_nil, nestItem]
      · rw [nestItem_ok (nested_line hl (hv l (by simp)))]
        dsimp only
        have hm' : [] ∈ vs := by
          rcases List.mem_cons.1 hm with h | h
          · exact absurd h.symm hl
          · exact h
        have := ih (fun l' h => hv l' (by simp [h])) hm'
        unfold ofLines at this
        rw [this]
  · left
    refine ⟨Exch.nested_ok hm, nestAll_of fun v h => ?_⟩
    obtain ⟨l, hl, rfl⟩ := List.mem_map.1 h
    exact nestItem_ok (nested_line (fun e => hm (e ▸ hl)) (hv l hl))

/-! ### Concrete cases -/

/-- Two vertices, the second one level deeper. -/
def mixed : List Val := [vertex true [0, 0], .seq false [vertex false [1, 1], vertex true [2, 2]]]

theorem mixed_nested : List.Forall₂ Nested mixed [[[0, 0]], [[1, 1], [2, 2]]] := by
  refine .cons (.vertex true 0 [0]) (.cons ?_ .nil)
  refine .list false [vertex false [1, 1], vertex true [2, 2]] [[[1, 1]], [[2, 2]]] (by simp) rfl fun i hi => ?_
  match i, hi with
  | 0, _ => exact .vertex false 1 [1]
  | 1, _ => exact .vertex true 2 [2]

example : fromVertices mixed = .ok [vertex true [0, 0], vertex false [1, 1], vertex true [2, 2]] := by
  simp [fromVertices, mixed, vertex, flatten, flattenItem, Val.iterable]

example : nestAll mixed = .ok [vertex false [0, 0], .seq false [vertex false [1, 1], vertex false [2, 2]]] := by
  rw [C162_shown_partial _ _ mixed_nested]
  simp [mixed, vertex, listedAll, Val.listed]

example : fromVertices (mixed ++ [.seq false []]) = .error .indexError := (C162_violated_empty mixed [] _ false mixed_nested).1

end Karta.Nest
