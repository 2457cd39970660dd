import Verif.Geod.CrossSph
import Verif.Vec.SweepComplete

/-!
# The sweep on the sphere

What the loop of `intersects_sph` answers for two lines that each go from west to east (or from east to west), in terms of
the tests of pairs.  Segments are inserted at the front, as the heights are NaN.
-/

namespace Karta.Geod.Cross
open Karta Karta.Geod
open Karta.Vec (Pt)
open Karta.Vec.Sweep

/-- Segments of the same geometry are above each other nowhere. -/
def Single (S : List CSeg) : Prop :=
  ∀ s ∈ S, ∀ t ∈ S, s.Slanted → t.Slanted → s.color = t.color → s ≠ t → t.hi ≤ s.lo ∨ s.hi ≤ t.lo

/-- Two segments of different geometries with overlapping ranges of longitude pass the test of pairs, or a segment along a
meridian and one that reaches it from the west pass theirs. -/
def Found (vert hit : CSeg → CSeg → Bool) (S : List CSeg) : Prop :=
  (∃ s ∈ S, ∃ t ∈ S, s.Slanted ∧ t.Slanted ∧ s.color ≠ t.color ∧ s.lo < t.hi ∧ t.lo < s.hi ∧ hit s t = true) ∨
  ∃ v ∈ S, ∃ s ∈ S, ¬ v.Slanted ∧ s.Slanted ∧ s.lo ≤ v.seg.a.x ∧ v.seg.a.x < s.hi ∧ vert v s = true

/-- Insertion at the front. -/
def front (_ : ℚ) (s : CSeg) (q : List CSeg) : List CSeg := s :: q

theorem beginLoop_front (b : List Ev) : ∀ q, beginLoopSph front b q = (beginSegs b).reverse ++ q := by
  induction b with
  | nil => intro q; rfl
  | cons e b ih =>
    intro q
    have h := ih (if e.kind = 0 then front e.x e.seg q else q)
    rw [show beginLoopSph front (e :: b) q = beginLoopSph front b (if e.kind = 0 then front e.x e.seg q else q) from rfl, h,
      beginSegs_cons]
    by_cases hk : e.kind = 0
    · rw [if_pos hk, if_pos hk]; simp [front]
    · rw [if_neg hk, if_neg hk]

theorem at_colors {S : List CSeg} (hS : Single S) {x : ℚ} {q : List CSeg} {bs : List (List Ev)} (h : At S x q bs) :
    ∀ s ∈ q, ∀ t ∈ q, s.color = t.color → s = t := by
  intro s hs t ht hc
  by_contra hne
  obtain ⟨a1, a2, a3, a4⟩ := (h.mem s).1 hs
  obtain ⟨b1, b2, b3, b4⟩ := (h.mem t).1 ht
  rcases hS s a1 t b1 a2 b2 hc hne with h1 | h1 <;> linarith

theorem at_most_two {q : List CSeg} (hn : q.Nodup) (hc : ∀ s ∈ q, ∀ t ∈ q, s.color = t.color → s = t) {s : CSeg} (hs : s ∈ q) :
    q = [s] ∨ ∃ t, t ≠ s ∧ (q = [s, t] ∨ q = [t, s]) := by
  match q, hn, hc, hs with
  | [a], _, _, hs => left; rw [List.mem_singleton.1 hs]
  | [a, b], hn, _, hs =>
    right
    have hab : a ≠ b := by intro h; rw [h] at hn; simp at hn
    rcases List.mem_cons.1 hs with rfl | h
    · exact ⟨b, hab.symm, Or.inl rfl⟩
    · rw [List.mem_singleton.1 h]; exact ⟨a, hab, Or.inr rfl⟩
  | a :: b :: c :: r, hn, hc, _ =>
    exfalso
    have hab : a ≠ b := by intro h; rw [h] at hn; simp at hn
    have hac : a ≠ c := by intro h; rw [h] at hn; simp at hn
    have hbc : b ≠ c := by intro h; rw [h] at hn; simp at hn
    have h1 : a.color ≠ b.color := fun h => hab (hc a (by simp) b (by simp) h)
    have h2 : a.color ≠ c.color := fun h => hac (hc a (by simp) c (by simp) h)
    have h3 : b.color ≠ c.color := fun h => hbc (hc b (by simp) c (by simp) h)
    cases ha : a.color <;> cases hb : b.color <;> cases hd : c.color <;> simp_all

/-- The check of a segment that begins finds the other segment of the sweep line. -/
theorem check_begin {vert hit : CSeg → CSeg → Bool} {q : List CSeg} (hn : q.Nodup)
    (hc : ∀ s ∈ q, ∀ t ∈ q, s.color = t.color → s = t) {e : Ev} (hk : e.kind = 0) (hs : e.seg ∈ q) (l r : Option CSeg) :
    (checkSph vert hit q e l r = .ok true ∧ ∃ t ∈ q, t ≠ e.seg ∧ hit t e.seg = true) ∨
    (checkSph vert hit q e l r = .ok false ∧ ∀ t ∈ q, t ≠ e.seg → hit t e.seg = false) := by
  unfold checkSph
  rw [if_neg (by rw [hk]; decide), if_pos hk]
  rcases at_most_two hn hc hs with h | ⟨t, ht, h | h⟩
  · rw [h, show [e.seg] = [] ++ e.seg :: [] from rfl, leftof_append (by simp), rightof_append (by simp)]
    right
    exact ⟨rfl, by intro t ht; simp at ht; intro h; exact absurd ht h⟩
  · rw [h, show [e.seg, t] = [] ++ e.seg :: [t] from rfl, leftof_append (by simp), rightof_append (by simp)]
    cases hh : hit t e.seg with
    | true => left; exact ⟨by simp [hh], t, by simp, ht, hh⟩
    | false =>
      right
      refine ⟨by simp [hh], ?_⟩
      intro u hu hne
      simp at hu
      rcases hu with rfl | rfl
      · exact absurd rfl hne
      · exact hh
  · rw [h, show [t, e.seg] = [t] ++ e.seg :: [] from rfl, leftof_append (by simpa using ht.symm), rightof_append (by simpa using ht.symm)]
    cases hh : hit t e.seg with
    | true => left; exact ⟨by simp [hh], t, by simp, ht, hh⟩
    | false =>
      right
      refine ⟨by simp [hh], ?_⟩
      intro u hu hne
      simp at hu
      rcases hu with rfl | rfl
      · exact hh
      · exact absurd rfl hne

theorem checkSph_ok {vert hit : CSeg → CSeg → Bool} {q : List CSeg} {e : Ev} {l r : Option CSeg} (h : e.kind = 0 → e.seg ∈ q) :
    ∃ b, checkSph vert hit q e l r = .ok b := by
  unfold checkSph
  by_cases h2 : e.kind = 2
  · rw [if_pos h2]; exact ⟨_, rfl⟩
  · rw [if_neg h2]
    by_cases h0 : e.kind = 0
    · rw [if_pos h0, leftof, if_pos (h h0), rightof, if_pos (h h0)]
      exact ⟨_, rfl⟩
    · rw [if_neg h0]
      by_cases h1 : e.kind = 1
      · rw [if_pos h1]; exact ⟨_, rfl⟩
      · rw [if_neg h1]; exact ⟨_, rfl⟩

theorem checkLoopSph_ok {vert hit : CSeg → CSeg → Bool} {q : List CSeg} (out : List (Ev × Option CSeg × Option CSeg))
    (h : ∀ o ∈ out, o.1.kind = 0 → o.1.seg ∈ q) :
    (checkLoopSph vert hit q out = .ok true ∧ ∃ o ∈ out, checkSph vert hit q o.1 o.2.1 o.2.2 = .ok true) ∨
    (checkLoopSph vert hit q out = .ok false ∧ ∀ o ∈ out, checkSph vert hit q o.1 o.2.1 o.2.2 = .ok false) := by
  induction out with
  | nil => exact Or.inr ⟨rfl, by simp⟩
  | cons o out ih =>
    obtain ⟨e, l, r⟩ := o
    rw [checkLoopSph]
    obtain ⟨b, hb⟩ := checkSph_ok (vert := vert) (hit := hit) (l := l) (r := r) (h (e, l, r) (by simp))
    cases b with
    | true => left; rw [hb]; exact ⟨rfl, (e, l, r), by simp, hb⟩
    | false =>
      rw [hb]
      simp only
      rcases ih (fun o ho => h o (by simp [ho])) with ⟨h1, o, ho, h2⟩ | ⟨h1, h2⟩
      · exact Or.inl ⟨h1, o, by simp [ho], h2⟩
      · right
        refine ⟨h1, ?_⟩
        intro o ho
        rcases List.mem_cons.1 ho with rfl | ho
        · exact hb
        · exact h2 o ho

/-- The insertion puts the segment somewhere into the list. -/
def Inserts (ins : ℚ → CSeg → List CSeg → List CSeg) : Prop := ∀ x s q, (ins x s q).Perm (s :: q)

theorem front_inserts : Inserts front := fun _ _ _ => List.Perm.refl _

theorem sweepInsertSph_inserts : Inserts sweepInsertSph := by
  intro x s q
  induction q with
  | nil => exact List.Perm.refl _
  | cons t q ih =>
    rw [sweepInsertSph]
    split
    · exact (ih.cons t).trans (List.Perm.swap _ _ _)
    · exact List.Perm.refl _

theorem beginLoop_inserts {ins : ℚ → CSeg → List CSeg → List CSeg} (hi : Inserts ins) (b : List Ev) :
    ∀ q, (beginLoopSph ins b q).Perm (beginSegs b ++ q) := by
  induction b with
  | nil => intro q; exact List.Perm.refl _
  | cons e b ih =>
    intro q
    rw [show beginLoopSph ins (e :: b) q = beginLoopSph ins b (if e.kind = 0 then ins e.x e.seg q else q) from rfl, beginSegs_cons]
    by_cases hk : e.kind = 0
    · rw [if_pos hk, if_pos hk]
      exact (ih _).trans (((hi _ _ _).append_left _).trans List.perm_middle)
    · rw [if_neg hk, if_neg hk]
      exact ih q

theorem sweepSph_step {ins : ℚ → CSeg → List CSeg → List CSeg} (hi : Inserts ins) {vert hit : CSeg → CSeg → Bool} {S : List CSeg}
    {x : ℚ} {q : List CSeg} {b : List Ev} {bs : List (List Ev)} (h : At S x q (b :: bs)) {x' : ℚ} (hx' : ∀ e ∈ b, e.x = x') :
    ∃ (q' : List CSeg) (out : List (Ev × Option CSeg × Option CSeg)),
      q' = (beginLoopSph ins b q).filter (fun s => s ∉ endingSegs b) ∧
      out.map Prod.fst = b ∧ (∀ o ∈ out, Recorded (endingSegs b) (beginLoopSph ins b q) o) ∧ At S x' q' bs ∧
      (∀ o ∈ out, o.1.kind = 0 → o.1.seg ∈ q') ∧
      ((sweepSph ins vert hit (b :: bs) q = .ok true ∧ ∃ o ∈ out, checkSph vert hit q' o.1 o.2.1 o.2.2 = .ok true) ∨
       (sweepSph ins vert hit (b :: bs) q = sweepSph ins vert hit bs q' ∧
          ∀ o ∈ out, checkSph vert hit q' o.1 o.2.1 o.2.2 = .ok false)) := by
  obtain ⟨out, ho, hfst, hrec, hat⟩ := h.step_perm hx' (beginLoop_inserts hi b q)
  obtain ⟨hxx, h2, h3, h4, h5⟩ := h.next hx'
  have hk : ∀ o ∈ out, o.1.kind = 0 → o.1.seg ∈ (beginLoopSph ins b q).filter (fun s => s ∉ endingSegs b) := by
    intro o ho' hk
    have hob : o.1 ∈ b := by rw [← hfst]; exact List.mem_map_of_mem ho'
    have : o.1.seg ∈ beginSegs b := List.mem_map.2 ⟨o.1, by simp [hob, hk], rfl⟩
    obtain ⟨a1, a2, a3⟩ := (mem_beginSegs h hx' _).1 this
    exact (hat.mem _).2 ⟨a1, a2, a3.le, by have := lo_lt_hi a2; linarith⟩
  refine ⟨_, out, rfl, hfst, hrec, hat, hk, ?_⟩
  rcases checkLoopSph_ok (vert := vert) (hit := hit) out hk with ⟨h6, h7⟩ | ⟨h6, h7⟩
  · left
    rw [sweepSph, ho]
    simp only
    rw [h6]
    exact ⟨rfl, h7⟩
  · right
    rw [sweepSph, ho]
    simp only
    rw [h6]
    exact ⟨rfl, h7⟩

/-- A check that succeeds has found something. -/
theorem checkSph_sound {vert hit : CSeg → CSeg → Bool} {S : List CSeg} (hS : Single S) {x x' : ℚ} {q q' : List CSeg}
    {b : List Ev} {bs : List (List Ev)} (h : At S x q (b :: bs)) (hx' : ∀ e ∈ b, e.x = x') (hat : At S x' q' bs)
    {e : Ev} {l r : Option CSeg} (he : e ∈ b)
    (hrec : Recorded (endingSegs b) ((beginSegs b).reverse ++ q) (e, l, r)) (hk : e.kind = 0 → e.seg ∈ q')
    (hc : checkSph vert hit q' e l r = .ok true) : Found vert hit S := by
  obtain ⟨hxx, h2, h3, h4, h5⟩ := h.next hx'
  obtain ⟨heS, hev⟩ := h3 e he
  by_cases k0 : e.kind = 0
  · rcases check_begin (vert := vert) (hit := hit) hat.nodup (at_colors hS hat) k0 (hk k0) l r with ⟨-, t, ht, hne, hh⟩ | ⟨hf, -⟩
    · obtain ⟨a1, a2, a3, a4⟩ := (hat.mem _).1 (hk k0)
      obtain ⟨b1, b2, b3, b4⟩ := (hat.mem _).1 ht
      exact Or.inl ⟨t, b1, e.seg, a1, b2, a2, fun hcol => hne (at_colors hS hat t ht _ (hk k0) hcol), by linarith, by linarith, hh⟩
    · rw [hf] at hc; cases hc
  · by_cases k2 : e.kind = 2
    · unfold checkSph at hc
      rw [if_pos k2] at hc
      injection hc with hc
      obtain ⟨s, hs, hv⟩ := List.any_eq_true.1 hc
      obtain ⟨b1, b2, b3, b4⟩ := (hat.mem _).1 hs
      have hns : ¬ e.seg.Slanted := by
        intro hsl
        rw [evsOf_slanted hsl] at hev
        simp only [List.mem_cons, List.not_mem_nil, or_false] at hev
        rcases hev with h7 | h7 <;> rw [h7] at k2 <;> cases k2
      have hxe : e.seg.seg.a.x = x' := by
        rw [← hx' e he]
        rcases (mem_evsOf_vertical hns e).1 hev with h7 | h7 <;> rw [h7]
      exact Or.inr ⟨e.seg, heS, s, b1, hns, b2, by rw [hxe]; exact b3, by rw [hxe]; exact b4, hv⟩
    · by_cases k1 : e.kind = 1
      · unfold checkSph at hc
        rw [if_neg k2, if_neg k0, if_pos k1] at hc
        injection hc with hc
        have hend : e.seg ∈ endingSegs b := List.mem_map.2 ⟨e, by simp [he, k1], rfl⟩
        obtain ⟨a1, a2, a3⟩ := (mem_endingSegs h hx' e.seg).1 hend
        have hold : e.seg ∈ q := by
          rw [h.mem]
          refine ⟨a1, a2, ?_, by linarith⟩
          rcases h2 _ a1 ⟨e.seg.lo, e.seg, 0⟩ (by rw [evsOf_slanted a2]; simp) with h6 | h6
          · exact h6
          · have := lo_lt_hi a2; simp only at h6; linarith
        obtain ⟨P, R, hPR⟩ := List.append_of_mem hold
        obtain ⟨-, hr⟩ := hrec k1 ((beginSegs b).reverse ++ P) R (by rw [hPR]; simp)
        dsimp only at hr
        cases l with
        | none => simp at hc
        | some l =>
          cases r with
          | none => simp at hc
          | some r =>
            have hc : hit r e.seg = true := hc
            have hrR : r ∈ R.filter fun s => s ∉ endingSegs b := List.mem_of_head? hr.symm
            have hrR' : r ∈ R := List.mem_of_mem_filter hrR
            have hrq : r ∈ q := by rw [hPR]; simp [hrR']
            have hne : r ≠ e.seg := by
              rintro rfl
              have := h.nodup
              rw [hPR, List.nodup_append] at this
              exact (List.nodup_cons.1 this.2.1).1 hrR'
            obtain ⟨b1, b2, b3, b4⟩ := (h.mem r).1 hrq
            obtain ⟨c1, c2, c3, c4⟩ := (h.mem e.seg).1 hold
            exact Or.inl ⟨r, b1, e.seg, a1, b2, a2, fun hcol => hne (at_colors hS h r hrq _ hold hcol), by linarith, by linarith, hc⟩
      · unfold checkSph at hc
        rw [if_neg k2, if_neg k0, if_neg k1] at hc
        cases hc

/-- What is to be found at this abscissa or later. -/
def FoundFrom (x : ℚ) (vert hit : CSeg → CSeg → Bool) (S : List CSeg) : Prop :=
  (∃ s ∈ S, ∃ t ∈ S, s.Slanted ∧ t.Slanted ∧ s.color ≠ t.color ∧ s.lo < t.hi ∧ t.lo < s.hi ∧ hit s t = true ∧ x < max s.lo t.lo) ∨
  ∃ v ∈ S, ∃ s ∈ S, ¬ v.Slanted ∧ s.Slanted ∧ s.lo ≤ v.seg.a.x ∧ v.seg.a.x < s.hi ∧ vert v s = true ∧ x < v.seg.a.x

/-- On the failure to find anything, whatever the order of the sweep line. -/
theorem sweepSph_complete {ins : ℚ → CSeg → List CSeg → List CSeg} (hi : Inserts ins) {vert hit : CSeg → CSeg → Bool} {S : List CSeg} (hS : Single S) (hsym : ∀ s ∈ S, ∀ t ∈ S, s.Slanted → t.Slanted → s.color ≠ t.color → hit s t = hit t s) :
    ∀ (bs : List (List Ev)) (x : ℚ) (q : List CSeg), At S x q bs →
      sweepSph ins vert hit bs q = .ok true ∨
      (sweepSph ins vert hit bs q = .ok false ∧ ¬ FoundFrom x vert hit S) := by
  intro bs
  induction bs with
  | nil =>
    intro x q h
    right
    refine ⟨rfl, ?_⟩
    have hno : ∀ s ∈ S, ∀ e ∈ evsOf s, e.x ≤ x := by
      intro s hs e he
      rcases h.comes s hs e he with h1 | h1
      · exact h1
      · simp at h1
    rintro (⟨s, hs, t, ht, a1, a2, -, -, -, -, hx⟩ | ⟨v, hv, s, hs, a1, -, -, -, -, hx⟩)
    · have h1 := hno s hs ⟨s.lo, s, 0⟩ (by rw [evsOf_slanted a1]; simp)
      have h2 := hno t ht ⟨t.lo, t, 0⟩ (by rw [evsOf_slanted a2]; simp)
      exact absurd hx (not_lt.2 (max_le h1 h2))
    · have h1 := hno v hv ⟨v.seg.a.x, v, 2⟩ ((mem_evsOf_vertical a1 _).2 (Or.inl rfl))
      exact absurd hx (not_lt.2 h1)
  | cons b bs ih =>
    intro x q h
    obtain ⟨hne, x', hx'⟩ := h.batched.1 b (by simp)
    obtain ⟨q', out, hq', hfst, hrec, hat, hk, hs⟩ := sweepSph_step hi (vert := vert) (hit := hit) h hx'
    obtain ⟨hxx, h2, h3, h4, h5⟩ := h.next hx'
    rcases hs with ⟨h1, ⟨e, l, r⟩, ho, hc⟩ | ⟨h1, hno⟩
    · exact Or.inl h1
    · rw [h1]
      rcases ih x' q' hat with h6 | ⟨h6, h7⟩
      · exact Or.inl h6
      · right
        refine ⟨h6, ?_⟩
        have hchk : ∀ e ∈ b, ∃ l r, (e, l, r) ∈ out := by
          intro e he
          rw [← hfst] at he
          obtain ⟨⟨e', l, r⟩, ho, rfl⟩ := List.mem_map.1 he
          exact ⟨l, r, ho⟩
        have hpair : ∀ s ∈ S, ∀ t ∈ S, s.Slanted → t.Slanted → s.color ≠ t.color → s.lo = x' → t.lo ≤ x' → s.lo < t.hi → hit t s = false := by
          intro s hs t ht sl tl hcol hlo htlo hlt
          have heb : (⟨s.lo, s, 0⟩ : Ev) ∈ b := h4 s hs _ (by rw [evsOf_slanted sl]; simp) hlo
          obtain ⟨l, r, ho⟩ := hchk _ heb
          have hsq : s ∈ q' := hk _ ho rfl
          have htq : t ∈ q' := (hat.mem t).2 ⟨ht, tl, htlo, by linarith⟩
          rcases check_begin (vert := vert) (hit := hit) (e := ⟨s.lo, s, 0⟩) hat.nodup (at_colors hS hat) rfl hsq l r with ⟨hf, -⟩ | ⟨-, hall⟩
          · rw [hno _ ho] at hf; cases hf
          · exact hall t htq (fun h => hcol (by rw [h]))
        rintro (⟨s, hs, t, ht, a1, a2, a3, a4, a5, a6, hx⟩ | ⟨v, hv, s, hs, a1, a2, a3, a4, a5, hx⟩)
        · by_cases hlt : x' < max s.lo t.lo
          · exact h7 (Or.inl ⟨s, hs, t, ht, a1, a2, a3, a4, a5, a6, hlt⟩)
          · push Not at hlt
            have g1 := h2 s hs ⟨s.lo, s, 0⟩ (by rw [evsOf_slanted a1]; simp)
            have g2 := h2 t ht ⟨t.lo, t, 0⟩ (by rw [evsOf_slanted a2]; simp)
            dsimp only at g1 g2
            have g3 := le_trans (le_max_left _ _) hlt
            have g4 := le_trans (le_max_right _ _) hlt
            rcases lt_max_iff.1 hx with hx | hx
            · have e1 : s.lo = x' := le_antisymm g3 (g1.resolve_left (by linarith))
              rw [hsym s hs t ht a1 a2 a3, hpair s hs t ht a1 a2 a3 e1 g4 a4] at a6
              cases a6
            · have e1 : t.lo = x' := le_antisymm g4 (g2.resolve_left (by linarith))
              rw [hpair t ht s hs a2 a1 (Ne.symm a3) e1 g3 a5] at a6
              cases a6
        · by_cases hlt : x' < v.seg.a.x
          · exact h7 (Or.inr ⟨v, hv, s, hs, a1, a2, a3, a4, a5, hlt⟩)
          · have g1 := h2 v hv ⟨v.seg.a.x, v, 2⟩ ((mem_evsOf_vertical a1 _).2 (Or.inl rfl))
            dsimp only at g1
            have e1 : v.seg.a.x = x' := le_antisymm (not_lt.1 hlt) (g1.resolve_left (by linarith))
            have heb : (⟨v.seg.a.x, v, 2⟩ : Ev) ∈ b := h4 v hv _ ((mem_evsOf_vertical a1 _).2 (Or.inl rfl)) e1
            obtain ⟨l, r, ho⟩ := hchk _ heb
            have hsq : s ∈ q' := (hat.mem s).2 ⟨hs, a2, by rw [← e1]; exact a3, by rw [← e1]; exact a4⟩
            have := hno _ ho
            unfold checkSph at this
            rw [if_pos rfl] at this
            injection this with this
            have h9 : (q'.any fun s => vert v s) = true := List.any_eq_true.2 ⟨s, hsq, a5⟩
            dsimp only at this
            rw [h9] at this
            cases this

theorem sweepSph_sound {vert hit : CSeg → CSeg → Bool} {S : List CSeg} (hS : Single S) :
    ∀ (bs : List (List Ev)) (x : ℚ) (q : List CSeg), At S x q bs → sweepSph front vert hit bs q = .ok true → Found vert hit S := by
  intro bs
  induction bs with
  | nil => intro x q _ h; cases h
  | cons b bs ih =>
    intro x q h ht
    obtain ⟨hne, x', hx'⟩ := h.batched.1 b (by simp)
    obtain ⟨q', out, hq', hfst, hrec, hat, hk, hs⟩ := sweepSph_step front_inserts (vert := vert) (hit := hit) h hx'
    rcases hs with ⟨h1, ⟨e, l, r⟩, ho, hc⟩ | ⟨h1, hno⟩
    · have heb : e ∈ b := by rw [← hfst]; exact List.mem_map_of_mem (f := Prod.fst) ho
      rw [beginLoop_front] at hrec
      exact checkSph_sound hS h hx' hat heb (hrec _ ho) (hk _ ho) hc
    · rw [h1] at ht
      exact ih x' q' hat ht

/-- The sweep misses nothing, whatever the order of the sweep line, when each geometry has at most one segment above each
longitude and no segment occurs twice. -/
theorem sweepSph_finds {ins : ℚ → CSeg → List CSeg → List CSeg} (hi : Inserts ins) {vert hit : CSeg → CSeg → Bool} {S : List CSeg}
    (hS : Single S) (hsym : ∀ s ∈ S, ∀ t ∈ S, s.Slanted → t.Slanted → s.color ≠ t.color → hit s t = hit t s) (hn : (S.filter fun s => decide s.Slanted).Nodup) :
    sweepSph ins vert hit (batches (eventQueue S)) [] = .ok true ∨
    (sweepSph ins vert hit (batches (eventQueue S)) [] = .ok false ∧ ¬ Found vert hit S) := by
  obtain ⟨x, hx, hat⟩ := at_start S hn
  rcases sweepSph_complete hi (vert := vert) (hit := hit) hS hsym _ x [] hat with h | ⟨h, hf⟩
  · exact Or.inl h
  · right
    refine ⟨h, ?_⟩
    have hmem : ∀ s ∈ S, ∀ e ∈ evsOf s, e ∈ eventQueue S := fun s hs e he =>
      (eventQueue_perm S).mem_iff.2 (List.mem_flatMap.2 ⟨s, hs, he⟩)
    rintro (⟨s, hs, t, ht, a1, a2, a3, a4, a5, a6⟩ | ⟨v, hv, s, hs, a1, a2, a3, a4, a5⟩)
    · exact hf (Or.inl ⟨s, hs, t, ht, a1, a2, a3, a4, a5, a6,
        lt_of_lt_of_le (hx _ (hmem s hs ⟨s.lo, s, 0⟩ (by rw [evsOf_slanted a1]; simp))) (le_max_left _ _)⟩)
    · exact hf (Or.inr ⟨v, hv, s, hs, a1, a2, a3, a4, a5,
        hx _ (hmem v hv ⟨v.seg.a.x, v, 2⟩ ((mem_evsOf_vertical a1 _).2 (Or.inl rfl)))⟩)

/-- With insertion at the front, it also finds nothing else. -/
theorem sweepSph_front {vert hit : CSeg → CSeg → Bool} {S : List CSeg} (hS : Single S)
    (hn : (S.filter fun s => decide s.Slanted).Nodup)
    (h : sweepSph front vert hit (batches (eventQueue S)) [] = .ok true) : Found vert hit S := by
  obtain ⟨x, -, hat⟩ := at_start S hn
  exact sweepSph_sound hS _ x [] hat h

end Karta.Geod.Cross
