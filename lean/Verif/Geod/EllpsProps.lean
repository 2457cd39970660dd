import Verif.Geod.Ellps
import Mathlib.Tactic.Ring
import Mathlib.Tactic.Linarith
import Mathlib.Tactic.FieldSimp
import Mathlib.Tactic.NormNum

/-!
# Ellipsoids of coordinate systems: C124
-/

namespace Karta.Ellps
open Karta

/-! ### Specification -/

/-- A parameter of a PROJ string: `+key=value`, or `+key`. -/
structure Param where
  key : Str
  val : Option Str
  deriving DecidableEq

/-- The parameter as a word. -/
def Param.word (p : Param) : Str :=
  match p.val with
  | some v => '+' :: p.key ++ '=' :: v
  | none => '+' :: p.key

/-- Neither key nor value contain the characters that separate parameters. -/
def Param.Clean (p : Param) : Prop := ('+' ∉ p.key ∧ '=' ∉ p.key) ∧ ∀ v, p.val = some v → '+' ∉ v ∧ '=' ∉ v

/-- The ellipsoid with a major axis and either the minor axis or the inverse flattening. -/
def Describes (e : Ell) (a : ℚ) (b rf : Option ℚ) : Prop :=
  e.a = a ∧ (∀ x, b = some x → e.b = some x ∧ e.f = some ((a - x) / a)) ∧
    (b = none → ∀ x, rf = some x → e.f = some (1 / x) ∧ e.b = some (a * (1 - 1 / x)))

/-! ### Words -/

theorem hasInfix_cons (n t : Str) (c : Char) : hasInfix n (c :: t) = (n.isPrefixOf (c :: t) || hasInfix n t) := by
  simp [hasInfix]

theorem hasInfix_none (n t : Str) (h : '+' ∉ t) : hasInfix ('+' :: n) t = false := by
  induction t with
  | nil => rfl
  | cons c t ih =>
    rw [hasInfix_cons, ih fun h' => h (List.mem_cons_of_mem _ h')]
    have : '+' ≠ c := fun e => h (by rw [e]; exact List.mem_cons_self)
    simp [List.isPrefixOf, this]

theorem prefix_key (n k v : Str) (hn : '=' ∉ n) : n.isPrefixOf (k ++ '=' :: v) = n.isPrefixOf k := by
  induction n generalizing k with
  | nil => rfl
  | cons c n ih =>
    have hc : c ≠ '=' := fun e => hn (by rw [e]; exact List.mem_cons_self)
    cases k with
    | nil => simp [List.isPrefixOf, hc]
    | cons d k =>
      simp only [List.cons_append, List.isPrefixOf]
      rw [ih k fun h => hn (List.mem_cons_of_mem _ h)]

theorem word_prefix (n : Str) (hn : '=' ∉ n) (p : Param) : ('+' :: n).isPrefixOf p.word = n.isPrefixOf p.key := by
  unfold Param.word
  cases hv : p.val with
  | none => simp [List.isPrefixOf]
  | some v =>
    simp only [List.cons_append, List.isPrefixOf, beq_self_eq_true, Bool.true_and]
    exact prefix_key n p.key v hn

theorem word_infix (n : Str) (hn : '=' ∉ n) (p : Param) (hp : p.Clean) : hasInfix ('+' :: n) p.word = n.isPrefixOf p.key := by
  have h2 : ∀ w, p.word = '+' :: w → '+' ∉ w := by
    intro w hw
    unfold Param.word at hw
    cases hv : p.val with
    | none => rw [hv] at hw; cases hw; exact hp.1.1
    | some v =>
      rw [hv] at hw; cases hw
      show '+' ∉ p.key ++ '=' :: v
      rw [List.mem_append]
      rintro (h | h)
      · exact hp.1.1 h
      · rcases List.mem_cons.1 h with h | h
        · exact absurd h (by decide)
        · exact (hp.2 v hv).1 h
  obtain ⟨w, hw⟩ : ∃ w, p.word = '+' :: w := by
    unfold Param.word
    cases p.val with
    | none => exact ⟨_, rfl⟩
    | some v => exact ⟨_, rfl⟩
  rw [← word_prefix n hn p, hw, hasInfix_cons, hasInfix_none n w (h2 w hw), Bool.or_false]

theorem within_words (n : Str) (hn : '=' ∉ n) (ps : List Param) (hp : ∀ p ∈ ps, p.Clean) :
    within ('+' :: n) (ps.map Param.word) = ps.any fun p => n.isPrefixOf p.key := by
  induction ps with
  | nil => rfl
  | cons p ps ih =>
    have := ih fun q hq => hp q (List.mem_cons_of_mem _ hq)
    unfold within at *
    rw [List.map_cons, List.any_cons, List.any_cons, this, word_infix n hn p (hp p List.mem_cons_self)]

theorem find_words (n : Str) (hn : '=' ∉ n) (ps : List Param) :
    ((ps.map Param.word).find? fun kv => ('+' :: n).isPrefixOf kv) = (ps.find? fun p => n.isPrefixOf p.key).map Param.word := by
  rw [List.find?_map]
  congr 1
  congr 1
  funext p
  exact word_prefix n hn p

theorem splitEq_word (k v : Str) (hp : (⟨k, some v⟩ : Param).Clean) : splitEq (Param.word ⟨k, some v⟩) = .ok ('+' :: k, v) := by
  obtain ⟨⟨-, hk⟩, hv⟩ := hp
  have hv' := (hv v rfl).2
  have hk' : ∀ c ∈ '+' :: k, (c != '=') = true := by
    intro c hc
    rcases List.mem_cons.1 hc with rfl | hc
    · decide
    · simp only [bne_iff_ne, ne_eq]; rintro rfl; exact hk hc
  unfold splitEq Param.word
  dsimp only
  have hcount : List.count '=' ('+' :: k ++ '=' :: v) = 1 := by
    rw [List.count_append, List.count_cons_of_ne (by decide), List.count_eq_zero.2 hk, List.count_cons_self, List.count_eq_zero.2 hv']
  rw [if_pos hcount, List.takeWhile_append_of_pos hk', List.dropWhile_append_of_pos hk']
  simp

theorem ell_mk (name : String) (a : ℚ) (b rf : Option ℚ) (ha : a ≠ 0) (hrf : rf ≠ some 0) (hs : b ≠ none ∨ rf ≠ none) :
    ∃ e, Ell.mk' name (some a) b rf = .ok e ∧ e.name = name ∧ Describes e a b rf := by
  cases b with
  | some b =>
    refine ⟨⟨name, a, some b, some ((a - b) / a)⟩, by simp [Ell.mk', ha], rfl, rfl, ?_, by simp⟩
    rintro x ⟨⟩; exact ⟨rfl, rfl⟩
  | none =>
    cases rf with
    | none => simp at hs
    | some rf =>
      have : rf ≠ 0 := fun e => hrf (by rw [e])
      refine ⟨⟨name, a, some (a - a * (1 / rf)), some (1 / rf)⟩, by simp [Ell.mk', this], rfl, rfl, by simp, ?_⟩
      rintro - x ⟨⟩
      exact ⟨rfl, by dsimp only; congr 1; ring⟩

/-! ### C124 -/

/-- Entries give the axes of an ellipsoid that is slightly flattened. -/
def Row.Sensible (r : Row) : Prop := 6000000 < r.a ∧ r.a < 7000000 ∧ (r.b ≠ none ∨ r.rf ≠ none) ∧ (∀ b, r.b = some b → 63 / 64 * r.a < b ∧ b ≤ r.a) ∧
  ∀ rf, r.rf = some rf → 150 < rf

/-- The same, decidable. -/
def Row.sensible (r : Row) : Bool := decide (6000000 < r.a) && decide (r.a < 7000000) && (r.b.isSome || r.rf.isSome) &&
  (match r.b with | some b => decide (63 / 64 * r.a < b) && decide (b ≤ r.a) | none => true) &&
  (match r.rf with | some rf => decide (150 < rf) | none => true)

theorem sensible_iff (r : Row) (h : r.sensible = true) : r.Sensible := by
  obtain ⟨a, b, rf, n⟩ := r
  cases b <;> cases rf <;> simp_all [Row.sensible, Row.Sensible]

theorem rows_sensible : ∀ kv ∈ rows, kv.2.Sensible := by
  have h : (rows.all fun kv => kv.2.sensible) = true := by decide +kernel
  intro kv hkv
  exact sensible_iff kv.2 (List.all_eq_true.1 h kv hkv)

theorem fromTable_spec (v : Str) (r : Row) (hr : rows.lookup v = some r) :
    ∃ e, fromTable v = .ok e ∧ e.name = r.name ∧ Describes e r.a r.b r.rf := by
  have hmem : (v, r) ∈ rows := by
    obtain ⟨l₁, l₂, hl, -⟩ := List.lookup_eq_some_iff.1 hr
    rw [hl]; simp
  obtain ⟨h1, -, h3, -, h5⟩ := rows_sensible _ hmem
  unfold fromTable
  rw [hr]
  refine ell_mk r.name r.a r.b r.rf (by dsimp only at h1; linarith [h1]) ?_ h3
  intro e
  have := h5 0 e
  norm_num at this

/-- C124: every named ellipsoid has a positive minor axis no longer than the major one, in keeping with the flattening. -/
theorem C124_named_are_ellipsoids (v : Str) (e : Ell) (h : fromTable v = .ok e) :
    ∃ b f, e.b = some b ∧ e.f = some f ∧ 0 < b ∧ b ≤ e.a ∧ 0 ≤ f ∧ f < 1 / 60 ∧ b = e.a * (1 - f) := by
  cases hr : rows.lookup v with
  | none => unfold fromTable at h; rw [hr] at h; cases h
  | some r =>
    have hmem : (v, r) ∈ rows := by
      obtain ⟨l₁, l₂, hl, -⟩ := List.lookup_eq_some_iff.1 hr
      rw [hl]; simp
    obtain ⟨h1, h2, h3, h4, h5⟩ := rows_sensible _ hmem
    obtain ⟨e', he', -, ha, hb, hf⟩ := fromTable_spec v r hr
    rw [he'] at h
    cases h
    dsimp only at h1 h2 h3 h4 h5
    have hpos : 0 < r.a := by linarith
    cases hrb : r.b with
    | some b =>
      obtain ⟨q1, q2⟩ := hb b hrb
      obtain ⟨p1, p2⟩ := h4 b hrb
      refine ⟨b, (r.a - b) / r.a, q1, q2, by linarith, by rw [ha]; exact p2, div_nonneg (by linarith) hpos.le, ?_, ?_⟩
      · rw [div_lt_iff₀ hpos]; linarith
      · rw [ha]; field_simp; ring
    | none =>
      cases hrf : r.rf with
      | none => rw [hrb, hrf] at h3; simp at h3
      | some rf =>
        obtain ⟨q1, q2⟩ := hf hrb rf hrf
        have h150 := h5 rf hrf
        have hrfpos : 0 < rf := by linarith
        have hlt : 1 / rf < 1 / 60 := by
          rw [div_lt_div_iff₀ hrfpos (by norm_num)]; linarith
        have hge : 0 ≤ 1 / rf := (one_div_pos.2 hrfpos).le
        refine ⟨_, _, q2, q1, ?_, ?_, hge, hlt, by rw [ha]⟩
        · apply mul_pos hpos; linarith
        · rw [ha]; nlinarith

/-- C124: a string with a parameter `+ellps=` and a known name has the ellipsoid of that name, whatever else it says. -/
theorem C124_ellps (float : Str → Except Err ℚ) (ps : List Param) (hc : ∀ p ∈ ps, p.Clean) (v : Str)
    (hm : (⟨"ellps".toList, some v⟩ : Param) ∈ ps) (hu : ∀ p ∈ ps, "ellps".toList <+: p.key → p = ⟨"ellps".toList, some v⟩)
    (r : Row) (hr : rows.lookup v = some r) :
    ∃ e, parseEllipsoid float (ps.map Param.word) = .ok e ∧ e.name = r.name ∧ Describes e r.a r.b r.rf := by
  have hw : within "+ellps".toList (ps.map Param.word) = true := by
    rw [show "+ellps".toList = '+' :: "ellps".toList from rfl, within_words _ (by decide) ps hc, List.any_eq_true]
    exact ⟨_, hm, List.isPrefixOf_iff_prefix.2 List.prefix_rfl⟩
  have hfind : (ps.find? fun p => "ellps".toList.isPrefixOf p.key) = some ⟨"ellps".toList, some v⟩ := by
    cases hf : ps.find? fun p => "ellps".toList.isPrefixOf p.key with
    | none =>
      rw [List.find?_eq_none] at hf
      exact absurd (List.isPrefixOf_iff_prefix.2 List.prefix_rfl) (hf _ hm)
    | some p =>
      have hf' := List.find?_some hf
      rw [hu p (List.mem_of_find?_eq_some hf) (List.isPrefixOf_iff_prefix.1 hf')]
  have h2 := find_words "ellps".toList (by decide) ps
  rw [hfind] at h2
  unfold parseEllipsoid
  rw [if_pos hw, show "+ellps".toList = '+' :: "ellps".toList from rfl, h2]
  dsimp only [Option.map_some]
  rw [splitEq_word _ _ (hc _ hm)]
  exact fromTable_spec v r hr

theorem datums_known : ∀ kv ∈ datums, kv.1 ≠ "carthage".toList → (rows.lookup kv.2).isSome := by decide +kernel

/-- C124 in part: a string without `+ellps` and with `+datum=` and the name of a known datum other than `carthage` has the ellipsoid of that
datum.  Missing: `carthage`, see `C124_violated_carthage`. -/
theorem C124_datum_partial (float : Str → Except Err ℚ) (ps : List Param) (hc : ∀ p ∈ ps, p.Clean) (v : Str)
    (hm : (⟨"datum".toList, some v⟩ : Param) ∈ ps) (hu : ∀ p ∈ ps, "datum".toList <+: p.key → p = ⟨"datum".toList, some v⟩)
    (hne : ∀ p ∈ ps, ¬ "ellps".toList <+: p.key) (n : Str) (hn : datums.lookup v = some n) (hv : v ≠ "carthage".toList) :
    ∃ e r, rows.lookup n = some r ∧ parseEllipsoid float (ps.map Param.word) = .ok e ∧ e.name = r.name ∧ Describes e r.a r.b r.rf := by
  have hmem : (v, n) ∈ datums := by
    obtain ⟨l₁, l₂, hl, -⟩ := List.lookup_eq_some_iff.1 hn
    rw [hl]; simp
  obtain ⟨r, hr⟩ := Option.isSome_iff_exists.1 (datums_known _ hmem hv)
  have hw0 : within "+ellps".toList (ps.map Param.word) = false := by
    rw [show "+ellps".toList = '+' :: "ellps".toList from rfl, within_words _ (by decide) ps hc, List.any_eq_false]
    intro p hp h
    exact hne p hp (List.isPrefixOf_iff_prefix.1 h)
  have hw : within "+datum".toList (ps.map Param.word) = true := by
    rw [show "+datum".toList = '+' :: "datum".toList from rfl, within_words _ (by decide) ps hc, List.any_eq_true]
    exact ⟨_, hm, List.isPrefixOf_iff_prefix.2 List.prefix_rfl⟩
  have hfind : (ps.find? fun p => "datum".toList.isPrefixOf p.key) = some ⟨"datum".toList, some v⟩ := by
    cases hf : ps.find? fun p => "datum".toList.isPrefixOf p.key with
    | none =>
      rw [List.find?_eq_none] at hf
      exact absurd (List.isPrefixOf_iff_prefix.2 List.prefix_rfl) (hf _ hm)
    | some p =>
      have hf' := List.find?_some hf
      rw [hu p (List.mem_of_find?_eq_some hf) (List.isPrefixOf_iff_prefix.1 hf')]
  have h2 := find_words "datum".toList (by decide) ps
  rw [hfind] at h2
  obtain ⟨e, he, h3⟩ := fromTable_spec n r hr
  refine ⟨e, r, hr, ?_, h3⟩
  unfold parseEllipsoid
  rw [if_neg (by rw [hw0]; simp), if_pos hw, show "+datum".toList = '+' :: "datum".toList from rfl, h2]
  dsimp only [Option.map_some]
  rw [splitEq_word _ _ (hc _ hm)]
  dsimp only
  unfold datumOf
  rw [hn]
  exact he

/-- C124 is false for the datum `carthage`: the table has no ellipsoid `clark80`. -/
theorem C124_violated_carthage (float : Str → Except Err ℚ) :
    datums.lookup "carthage".toList = some "clark80".toList ∧
      parseEllipsoid float ["+proj=utm".toList, "+zone=32".toList, "+datum=carthage".toList] = .error .keyError := by
  constructor <;> rfl

/-- The loop over the axes ends with the axes of the two parameters. -/
theorem axesLoop_spec (float : Str → Except Err ℚ) (a : ℚ) (b rf : Option ℚ) (ha : a ≠ 0) (hbr : truthy b = true ∨ truthy rf = true)
    (set : Axes → Axes) (hset : (∀ s, set s = { s with b := b }) ∧ rf = none ∨ (∀ s, set s = { s with rf := rf }) ∧ b = none)
    (A B : Str) (hA : ∀ s, axesStep float A s = .ok { s with a := some a }) (hB : ∀ s, axesStep float B s = .ok (set s)) (ws : List Str)
    (hw : ∀ w ∈ ws, w ≠ A → w ≠ B → ∀ s, axesStep float w s = .ok s) :
    ∀ s : Axes, (s.a = some a ∨ (s.a = none ∧ A ∈ ws)) →
      ((s.b = b ∧ s.rf = rf) ∨ (s.b = none ∧ s.rf = none ∧ B ∈ ws)) → axesLoop float ws s = .ok ⟨some a, b, rf⟩ := by
  have hta : truthy (some a) = true := by simp [truthy, ha]
  have hset' : ∀ s : Axes, ((s.b = b ∧ s.rf = rf) ∨ (s.b = none ∧ s.rf = none)) → (set s).a = s.a ∧ (set s).b = b ∧ (set s).rf = rf := by
    intro s hs
    rcases hset with ⟨h1, h2⟩ | ⟨h1, h2⟩
    · rw [h1]
      refine ⟨rfl, rfl, ?_⟩
      rcases hs with h | h
      · exact h.2
      · rw [h2]; exact h.2
    · rw [h1]
      refine ⟨rfl, ?_, rfl⟩
      rcases hs with h | h
      · exact h.1
      · rw [h2]; exact h.1
  induction ws with
  | nil =>
    intro s h1 h2
    have e1 : s.a = some a := by rcases h1 with h | ⟨-, h⟩; exact h; cases h
    have e2 : s.b = b ∧ s.rf = rf := by rcases h2 with h | ⟨-, -, h⟩; exact h; cases h
    obtain ⟨x, y, z⟩ := s
    obtain ⟨rfl, rfl⟩ := e2
    dsimp only at e1
    rw [e1]; rfl
  | cons w ws ih =>
    intro s h1 h2
    have ih' := ih (fun w' hw' => hw w' (List.mem_cons_of_mem _ hw'))
    -- the state after the word
    obtain ⟨s', hs', g1, g2⟩ : ∃ s', axesStep float w s = .ok s' ∧ (s'.a = some a ∨ (s'.a = none ∧ A ∈ ws)) ∧
        ((s'.b = b ∧ s'.rf = rf) ∨ (s'.b = none ∧ s'.rf = none ∧ B ∈ ws)) := by
      by_cases hwA : w = A
      · refine ⟨_, by rw [hwA]; exact hA s, Or.inl rfl, ?_⟩
        rcases h2 with h | ⟨x, y, h⟩
        · exact Or.inl h
        · by_cases hAB : A = B
          · -- the same word sets both
            have e := hA s
            rw [hAB, hB s] at e
            have e' := Except.ok.inj e
            obtain ⟨-, q2, q3⟩ := hset' s (Or.inr ⟨x, y⟩)
            rw [e'] at q2 q3
            exact Or.inl ⟨q2, q3⟩
          · rcases List.mem_cons.1 h with h | h
            · exact absurd (hwA.symm.trans h.symm) hAB
            · exact Or.inr ⟨x, y, h⟩
      · by_cases hwB : w = B
        · have hst : (s.b = b ∧ s.rf = rf) ∨ (s.b = none ∧ s.rf = none) := by
            rcases h2 with h | ⟨x, y, -⟩
            · exact Or.inl h
            · exact Or.inr ⟨x, y⟩
          obtain ⟨q1, q2, q3⟩ := hset' s hst
          refine ⟨_, by rw [hwB]; exact hB s, ?_, Or.inl ⟨q2, q3⟩⟩
          rw [q1]
          rcases h1 with h | ⟨x, h⟩
          · exact Or.inl h
          · rcases List.mem_cons.1 h with h | h
            · exact absurd h.symm hwA
            · exact Or.inr ⟨x, h⟩
        · refine ⟨s, hw w List.mem_cons_self hwA hwB s, ?_, ?_⟩
          · rcases h1 with h | ⟨x, h⟩
            · exact Or.inl h
            · rcases List.mem_cons.1 h with h | h
              · exact absurd h.symm hwA
              · exact Or.inr ⟨x, h⟩
          · rcases h2 with h | ⟨x, y, h⟩
            · exact Or.inl h
            · rcases List.mem_cons.1 h with h | h
              · exact absurd h.symm hwB
              · exact Or.inr ⟨x, y, h⟩
    unfold axesLoop
    rw [hs']
    dsimp only
    by_cases hb : (truthy s'.a && (truthy s'.b || truthy s'.rf)) = true
    · rw [if_pos hb]
      have e1 : s'.a = some a := by
        rcases g1 with h | ⟨h, -⟩
        · exact h
        · rw [h] at hb; simp [truthy] at hb
      have e2 : s'.b = b ∧ s'.rf = rf := by
        rcases g2 with h | ⟨x, y, -⟩
        · exact h
        · rw [x, y] at hb; simp [truthy] at hb
      obtain ⟨x, y, z⟩ := s'
      obtain ⟨rfl, rfl⟩ := e2
      dsimp only at e1
      rw [e1]
    · rw [if_neg hb]
      exact ih' s' g1 g2

theorem step_other (float : Str → Except Err ℚ) (p : Param) (h : ∀ c ∈ ['a', 'b', 'f'], ¬ [c] <+: p.key) (s : Axes) :
    axesStep float p.word s = .ok s := by
  have key : ∀ c ∈ ['a', 'b', 'f'], ['+', c].isPrefixOf p.word = false := by
    intro c hc
    rw [word_prefix [c] (by simp only [List.mem_cons, List.not_mem_nil, or_false] at hc ⊢; rcases hc with rfl | rfl | rfl <;> decide) p]
    rw [Bool.eq_false_iff]
    intro h'
    exact h c hc (List.isPrefixOf_iff_prefix.1 h')
  unfold axesStep
  rw [if_neg (by rw [show "+a".toList = ['+', 'a'] from rfl, key 'a' (by simp)]; simp),
    if_neg (by rw [show "+b".toList = ['+', 'b'] from rfl, key 'b' (by simp)]; simp),
    if_neg (by rw [show "+f".toList = ['+', 'f'] from rfl, key 'f' (by simp)]; simp)]

theorem step_a (float : Str → Except Err ℚ) (v : Str) (hp : (⟨['a'], some v⟩ : Param).Clean) (a : ℚ) (ha : float v = .ok a) (s : Axes) :
    axesStep float (Param.word ⟨['a'], some v⟩) s = .ok { s with a := some a } := by
  unfold axesStep
  rw [if_pos (by rfl), splitEq_word _ _ hp]
  dsimp only
  rw [ha]; rfl

theorem step_b (float : Str → Except Err ℚ) (v : Str) (hp : (⟨['b'], some v⟩ : Param).Clean) (b : ℚ) (hb : float v = .ok b) (s : Axes) :
    axesStep float (Param.word ⟨['b'], some v⟩) s = .ok { s with b := some b } := by
  unfold axesStep
  rw [if_neg (by rw [show "+a".toList = '+' :: ['a'] from rfl, word_prefix _ (by decide)]; exact Bool.false_ne_true), if_pos (by rfl), splitEq_word _ _ hp]
  dsimp only
  rw [hb]; rfl

theorem step_f (float : Str → Except Err ℚ) (v : Str) (hp : (⟨['f'], some v⟩ : Param).Clean) (f : ℚ) (hf : float v = .ok f) (h0 : f ≠ 0) (s : Axes) :
    axesStep float (Param.word ⟨['f'], some v⟩) s = .ok { s with rf := some (1 / f) } := by
  unfold axesStep
  rw [if_neg (by rw [show "+a".toList = '+' :: ['a'] from rfl, word_prefix _ (by decide)]; exact Bool.false_ne_true),
    if_neg (by rw [show "+b".toList = '+' :: ['b'] from rfl, word_prefix _ (by decide)]; exact Bool.false_ne_true), if_pos (by rfl), splitEq_word _ _ hp]
  dsimp only
  rw [hf]
  dsimp only
  rw [if_neg h0]

theorem parse_axes (float : Str → Except Err ℚ) (ps : List Param) (hc : ∀ p ∈ ps, p.Clean) (c : Char) (hcc : c = 'b' ∨ c = 'f') (va vc : Str)
    (hma : (⟨['a'], some va⟩ : Param) ∈ ps) (hmc : (⟨[c], some vc⟩ : Param) ∈ ps)
    (hne : ∀ p ∈ ps, ¬ "ellps".toList <+: p.key ∧ ¬ "datum".toList <+: p.key) :
    parseEllipsoid float (ps.map Param.word) =
      match axesLoop float (ps.map Param.word) ⟨none, none, none⟩ with
      | .error e => .error e
      | .ok s => Ell.mk' "Unknown" s.a s.b s.rf := by
  have no : ∀ n : Str, '=' ∉ n → (∀ p ∈ ps, ¬ n <+: p.key) → within ('+' :: n) (ps.map Param.word) = false := by
    intro n hn h
    rw [within_words _ hn ps hc, List.any_eq_false]
    intro p hp h'
    exact h p hp (List.isPrefixOf_iff_prefix.1 h')
  have yes : ∀ n : Str, '=' ∉ n → ∀ v, (⟨n, v⟩ : Param) ∈ ps → within ('+' :: n) (ps.map Param.word) = true := by
    intro n hn v h
    rw [within_words _ hn ps hc, List.any_eq_true]
    exact ⟨_, h, List.isPrefixOf_iff_prefix.2 List.prefix_rfl⟩
  have h1 := no "ellps".toList (by decide) fun p hp => (hne p hp).1
  have h2 := no "datum".toList (by decide) fun p hp => (hne p hp).2
  have h3 := yes ['a'] (by decide) _ hma
  have h4 : (within "+b".toList (ps.map Param.word) || within "+f".toList (ps.map Param.word)) = true := by
    rcases hcc with rfl | rfl
    · rw [show "+b".toList = '+' :: ['b'] from rfl, yes ['b'] (by decide) _ hmc]; rfl
    · rw [show "+f".toList = '+' :: ['f'] from rfl, yes ['f'] (by decide) _ hmc, Bool.or_true]
  unfold parseEllipsoid
  rw [show "+ellps".toList = '+' :: "ellps".toList from rfl, h1, show "+datum".toList = '+' :: "datum".toList from rfl, h2,
    show "+a".toList = '+' :: ['a'] from rfl, h3, h4]
  rfl

/-- C124 in part: a string with the axes `+a=` and `+b=` has that ellipsoid, provided no other key begins with `a`, `b` or `f`.  Missing: such
keys, see `C124_violated_alpha`. -/
theorem C124_axes_partial (float : Str → Except Err ℚ) (ps : List Param) (hc : ∀ p ∈ ps, p.Clean) (va vb : Str) (a b : ℚ)
    (hma : (⟨['a'], some va⟩ : Param) ∈ ps) (hmb : (⟨['b'], some vb⟩ : Param) ∈ ps) (ha : float va = .ok a) (hb : float vb = .ok b)
    (ha0 : a ≠ 0) (hb0 : b ≠ 0) (hne : ∀ p ∈ ps, ¬ "ellps".toList <+: p.key ∧ ¬ "datum".toList <+: p.key)
    (ho : ∀ p ∈ ps, p = ⟨['a'], some va⟩ ∨ p = ⟨['b'], some vb⟩ ∨ ∀ c ∈ ['a', 'b', 'f'], ¬ [c] <+: p.key) :
    parseEllipsoid float (ps.map Param.word) = .ok ⟨"Unknown", a, some b, some ((a - b) / a)⟩ := by
  rw [parse_axes float ps hc 'b' (Or.inl rfl) va vb hma hmb hne,
    axesLoop_spec float a (some b) none ha0 (Or.inl (by simp [truthy, hb0])) (fun s => { s with b := some b }) (Or.inl ⟨fun _ => rfl, rfl⟩)
      (Param.word ⟨['a'], some va⟩) (Param.word ⟨['b'], some vb⟩) (step_a float va (hc _ hma) a ha) (step_b float vb (hc _ hmb) b hb)
      (ps.map Param.word) ?_ ⟨none, none, none⟩ (Or.inr ⟨rfl, List.mem_map_of_mem hma⟩) (Or.inr ⟨rfl, rfl, List.mem_map_of_mem hmb⟩)]
  · simp [Ell.mk', ha0]
  · intro w hw h1 h2 s
    obtain ⟨p, hp, rfl⟩ := List.mem_map.1 hw
    rcases ho p hp with rfl | rfl | h
    · exact absurd rfl h1
    · exact absurd rfl h2
    · exact step_other float p h s

/-- C124 in part: a string with the major axis `+a=` and the flattening `+f=` has that ellipsoid, unless the flattening is zero
(`C124_violated_sphere`) or another key begins with `a`, `b` or `f`. -/
theorem C124_flattening_partial (float : Str → Except Err ℚ) (ps : List Param) (hc : ∀ p ∈ ps, p.Clean) (va vf : Str) (a f : ℚ)
    (hma : (⟨['a'], some va⟩ : Param) ∈ ps) (hmf : (⟨['f'], some vf⟩ : Param) ∈ ps) (ha : float va = .ok a) (hf : float vf = .ok f)
    (ha0 : a ≠ 0) (hf0 : f ≠ 0) (hne : ∀ p ∈ ps, ¬ "ellps".toList <+: p.key ∧ ¬ "datum".toList <+: p.key)
    (ho : ∀ p ∈ ps, p = ⟨['a'], some va⟩ ∨ p = ⟨['f'], some vf⟩ ∨ ∀ c ∈ ['a', 'b', 'f'], ¬ [c] <+: p.key) :
    parseEllipsoid float (ps.map Param.word) = .ok ⟨"Unknown", a, some (a * (1 - f)), some f⟩ := by
  rw [parse_axes float ps hc 'f' (Or.inr rfl) va vf hma hmf hne,
    axesLoop_spec float a none (some (1 / f)) ha0 (Or.inr (by simp [truthy, hf0])) (fun s => { s with rf := some (1 / f) })
      (Or.inr ⟨fun _ => rfl, rfl⟩) (Param.word ⟨['a'], some va⟩) (Param.word ⟨['f'], some vf⟩) (step_a float va (hc _ hma) a ha)
      (step_f float vf (hc _ hmf) f hf hf0) (ps.map Param.word) ?_ ⟨none, none, none⟩ (Or.inr ⟨rfl, List.mem_map_of_mem hma⟩)
      (Or.inr ⟨rfl, rfl, List.mem_map_of_mem hmf⟩)]
  · dsimp only [Ell.mk']
    rw [if_neg (one_div_ne_zero hf0), one_div_one_div]
    congr 3
    ring
  · intro w hw h1 h2 s
    obtain ⟨p, hp, rfl⟩ := List.mem_map.1 hw
    rcases ho p hp with rfl | rfl | h
    · exact absurd rfl h1
    · exact absurd rfl h2
    · exact step_other float p h s

/-- C124: a string that names no ellipsoid, no datum and no axes is refused. -/
theorem C124_refused (float : Str → Except Err ℚ) (ps : List Param) (hc : ∀ p ∈ ps, p.Clean)
    (hne : ∀ p ∈ ps, ¬ "ellps".toList <+: p.key ∧ ¬ "datum".toList <+: p.key)
    (ho : (∀ p ∈ ps, ¬ ['a'] <+: p.key) ∨ ∀ p ∈ ps, ¬ ['b'] <+: p.key ∧ ¬ ['f'] <+: p.key) :
    parseEllipsoid float (ps.map Param.word) = .error .other := by
  have no : ∀ n : Str, '=' ∉ n → (∀ p ∈ ps, ¬ n <+: p.key) → within ('+' :: n) (ps.map Param.word) = false := by
    intro n hn h
    rw [within_words _ hn ps hc, List.any_eq_false]
    intro p hp h'
    exact h p hp (List.isPrefixOf_iff_prefix.1 h')
  have h1 := no "ellps".toList (by decide) fun p hp => (hne p hp).1
  have h2 := no "datum".toList (by decide) fun p hp => (hne p hp).2
  have h3 : (within ('+' :: ['a']) (ps.map Param.word) && (within ('+' :: ['b']) (ps.map Param.word) || within ('+' :: ['f']) (ps.map Param.word))) = false := by
    rcases ho with h | h
    · rw [no ['a'] (by decide) h]; rfl
    · rw [no ['b'] (by decide) fun p hp => (h p hp).1, no ['f'] (by decide) fun p hp => (h p hp).2]; simp
  unfold parseEllipsoid
  rw [show "+ellps".toList = '+' :: "ellps".toList from rfl, h1, show "+datum".toList = '+' :: "datum".toList from rfl, h2,
    show "+a".toList = '+' :: ['a'] from rfl, show "+b".toList = '+' :: ['b'] from rfl, show "+f".toList = '+' :: ['f'] from rfl, h3]
  rfl

/-- C124 is false for spheres given by a flattening of zero: a division by zero, as the inverse flattening is computed. -/
theorem C124_violated_sphere (float : Str → Except Err ℚ) (va vf : Str) (a : ℚ) (hca : (⟨['a'], some va⟩ : Param).Clean)
    (hcf : (⟨['f'], some vf⟩ : Param).Clean) (ha : float va = .ok a) (hf : float vf = .ok 0) :
    parseEllipsoid float [Param.word ⟨['a'], some va⟩, Param.word ⟨['f'], some vf⟩] = .error .zeroDivision := by
  have h := parse_axes float [⟨['a'], some va⟩, ⟨['f'], some vf⟩] (by simp [hca, hcf]) 'f' (Or.inr rfl) va vf (by simp) (by simp)
    (by simp only [List.forall_mem_cons, List.not_mem_nil, false_implies, implies_true, and_true]; decide)
  have h' : parseEllipsoid float [Param.word ⟨['a'], some va⟩, Param.word ⟨['f'], some vf⟩] = _ := h
  rw [h']
  have e1 : axesLoop float ([⟨['a'], some va⟩, ⟨['f'], some vf⟩].map Param.word) ⟨none, none, none⟩ = .error .zeroDivision := by
    show axesLoop float [Param.word ⟨['a'], some va⟩, Param.word ⟨['f'], some vf⟩] ⟨none, none, none⟩ = _
    unfold axesLoop
    rw [step_a float va hca a ha]
    dsimp only
    rw [if_neg (by simp [truthy])]
    unfold axesLoop
    have : axesStep float (Param.word ⟨['f'], some vf⟩) ⟨some a, none, none⟩ = .error .zeroDivision := by
      unfold axesStep
      rw [if_neg (by rw [show "+a".toList = '+' :: ['a'] from rfl, word_prefix _ (by decide)]; exact Bool.false_ne_true),
        if_neg (by rw [show "+b".toList = '+' :: ['b'] from rfl, word_prefix _ (by decide)]; exact Bool.false_ne_true), if_pos (by rfl), splitEq_word _ _ hcf]
      dsimp only
      rw [hf]
      dsimp only
      rw [if_pos rfl]
    rw [this]
  rw [e1]

/-- C124 is false with a further key that begins with `a`: the azimuth `+alpha=` between the axes is taken for the major axis. -/
theorem C124_violated_alpha (float : Str → Except Err ℚ) (h1 : float "6378137".toList = .ok 6378137) (h2 : float "30".toList = .ok 30)
    (h3 : float "6356752".toList = .ok 6356752) :
    parseEllipsoid float ["+proj=omerc".toList, "+a=6378137".toList, "+alpha=30".toList, "+b=6356752".toList] =
      .ok ⟨"Unknown", 30, some 6356752, some ((30 - 6356752) / 30)⟩ := by
  have e1 : axesStep float "+proj=omerc".toList ⟨none, none, none⟩ = .ok ⟨none, none, none⟩ := rfl
  have s2 : splitEq "+a=6378137".toList = .ok ("+a".toList, "6378137".toList) := by decide
  have s3 : splitEq "+alpha=30".toList = .ok ("+alpha".toList, "30".toList) := by decide
  have s4 : splitEq "+b=6356752".toList = .ok ("+b".toList, "6356752".toList) := by decide
  have e2 : axesStep float "+a=6378137".toList ⟨none, none, none⟩ = .ok ⟨some 6378137, none, none⟩ := by
    unfold axesStep; rw [if_pos (by rfl), s2]; dsimp only; rw [h1]; rfl
  have e3 : axesStep float "+alpha=30".toList ⟨some 6378137, none, none⟩ = .ok ⟨some 30, none, none⟩ := by
    unfold axesStep; rw [if_pos (by rfl), s3]; dsimp only; rw [h2]; rfl
  have e4 : axesStep float "+b=6356752".toList ⟨some 30, none, none⟩ = .ok ⟨some 30, some 6356752, none⟩ := by
    unfold axesStep; rw [if_neg (by decide), if_pos (by rfl), s4]; dsimp only; rw [h3]; rfl
  have e5 : axesLoop float ["+proj=omerc".toList, "+a=6378137".toList, "+alpha=30".toList, "+b=6356752".toList] ⟨none, none, none⟩ =
      .ok ⟨some 30, some 6356752, none⟩ := by
    unfold axesLoop
    rw [e1]; dsimp only; rw [if_neg (by simp [truthy])]
    unfold axesLoop
    rw [e2]; dsimp only; rw [if_neg (by simp [truthy])]
    unfold axesLoop
    rw [e3]; dsimp only; rw [if_neg (by simp [truthy])]
    unfold axesLoop
    rw [e4]; dsimp only; rw [if_pos (by simp [truthy])]
  unfold parseEllipsoid
  rw [if_neg (by decide), if_neg (by decide), if_pos (by decide), e5]
  simp [Ell.mk']

/-- C124: the system made from a WKT definition that names a known ellipsoid or a known datum other than `carthage` has that ellipsoid. -/
theorem C124_wkt_partial (float : Str → Except Err ℚ) (ps : List Param) (hc : ∀ p ∈ ps, p.Clean) (q : Param) (rest : List Param)
    (hq : q.Clean) (hne : ∀ p ∈ ps, ¬ "ellps".toList <+: p.key ∧ ¬ "datum".toList <+: p.key) :
    (∀ v r, q = ⟨"ellps".toList, some v⟩ → rows.lookup v = some r →
      ∃ g, fromWkt float ((ps ++ q :: rest).map Param.word) = .ok g ∧ g.ellipsoid.name = r.name ∧ Describes g.ellipsoid r.a r.b r.rf) ∧
    (∀ v n, q = ⟨"datum".toList, some v⟩ → datums.lookup v = some n → v ≠ "carthage".toList →
      ∃ g r, rows.lookup n = some r ∧ fromWkt float ((ps ++ q :: rest).map Param.word) = .ok g ∧ g.name = v ∧ g.ellipsoid.name = r.name ∧
        Describes g.ellipsoid r.a r.b r.rf) := by
  have skip : fromWkt float ((ps ++ q :: rest).map Param.word) = fromWkt float (q.word :: rest.map Param.word) := by
    induction ps with
    | nil => rfl
    | cons p ps ih =>
      have hp := hc p List.mem_cons_self
      obtain ⟨n1, n2⟩ := hne p List.mem_cons_self
      have f1 : hasInfix "+ellps".toList p.word = false := by
        rw [show "+ellps".toList = '+' :: "ellps".toList from rfl, word_infix _ (by decide) p hp, Bool.eq_false_iff]
        exact fun h => n1 (List.isPrefixOf_iff_prefix.1 h)
      have f2 : hasInfix "+datum".toList p.word = false := by
        rw [show "+datum".toList = '+' :: "datum".toList from rfl, word_infix _ (by decide) p hp, Bool.eq_false_iff]
        exact fun h => n2 (List.isPrefixOf_iff_prefix.1 h)
      rw [List.cons_append, List.map_cons, fromWkt, if_neg (by rw [f1]; simp), if_neg (by rw [f2]; simp)]
      exact ih (fun p hp => hc p (List.mem_cons_of_mem _ hp)) fun p hp => hne p (List.mem_cons_of_mem _ hp)
  rw [skip]
  constructor
  · rintro v r rfl hr
    obtain ⟨e, he, h2⟩ := C124_ellps float [⟨"ellps".toList, some v⟩] (by simpa using hq) v (by simp) (by simp) r hr
    refine ⟨⟨"+proj=lonlat".toList :: [Param.word ⟨"ellps".toList, some v⟩] ++ ["+datum=WGS84".toList], e, "unnamed".toList⟩, ?_, h2⟩
    have f1 : hasInfix "+ellps".toList (Param.word ⟨"ellps".toList, some v⟩) = true := by
      rw [show "+ellps".toList = '+' :: "ellps".toList from rfl, word_infix _ (by decide) _ hq]; rfl
    rw [fromWkt, if_pos f1]
    unfold geographical
    have he' : parseEllipsoid float [Param.word ⟨"ellps".toList, some v⟩] = .ok e := he
    rw [he']
  · rintro v n rfl hn hv
    have hmem : (v, n) ∈ datums := by
      obtain ⟨l₁, l₂, hl, -⟩ := List.lookup_eq_some_iff.1 hn
      rw [hl]; simp
    obtain ⟨r, hr⟩ := Option.isSome_iff_exists.1 (datums_known _ hmem hv)
    have hcl : (⟨"ellps".toList, some n⟩ : Param).Clean := by
      refine ⟨(by decide : '+' ∉ "ellps".toList ∧ '=' ∉ "ellps".toList), ?_⟩
      rintro w ⟨⟩
      have : ∀ kv ∈ datums, '+' ∉ kv.2 ∧ '=' ∉ kv.2 := by decide +kernel
      exact this _ hmem
    obtain ⟨e, he, h2⟩ := C124_ellps float [⟨"ellps".toList, some n⟩] (by simpa using hcl) n (by simp) (by simp) r hr
    refine ⟨⟨"+proj=lonlat".toList :: ["+ellps=".toList ++ n] ++ ["+datum=WGS84".toList], e, v⟩, r, hr, ?_, rfl, h2⟩
    have f1 : hasInfix "+ellps".toList (Param.word ⟨"datum".toList, some v⟩) = false := by
      rw [show "+ellps".toList = '+' :: "ellps".toList from rfl, word_infix _ (by decide) _ hq]; rfl
    have f2 : hasInfix "+datum".toList (Param.word ⟨"datum".toList, some v⟩) = true := by
      rw [show "+datum".toList = '+' :: "datum".toList from rfl, word_infix _ (by decide) _ hq]; rfl
    rw [fromWkt, if_neg (by rw [f1]; simp), if_pos f2, splitEq_word _ _ hq]
    dsimp only
    unfold datumOf
    rw [hn]
    dsimp only
    unfold geographical
    have he' : parseEllipsoid float ["+ellps=".toList ++ n] = .ok e := he
    rw [he']

/-- C124 is false for the datum of a WKT definition: whatever it is, the system is one on the datum WGS84. -/
theorem C124_violated_datum (float : Str → Except Err ℚ) (ws : List Str) (g : Geographical) (h : fromWkt float ws = .ok g) :
    "+datum=WGS84".toList ∈ g.proj4 := by
  have key : ∀ (s : List Str) (n : Str), geographical float s n = .ok g → "+datum=WGS84".toList ∈ g.proj4 := by
    intro s n hg
    unfold geographical at hg
    cases hp : parseEllipsoid float s with
    | error e => rw [hp] at hg; cases hg
    | ok e => rw [hp] at hg; cases hg; simp
  induction ws with
  | nil => cases h
  | cons w ws ih =>
    unfold fromWkt at h
    split at h
    · exact key _ _ h
    · split at h
      · split at h
        · cases h
        · split at h
          · cases h
          · exact key _ _ h
      · exact ih h

/-! ### Cases -/

example (float : Str → Except Err ℚ) : ∃ e, parseEllipsoid float ["+proj=longlat".toList, "+ellps=clrk66".toList, "+no_defs".toList] = .ok e ∧
    e.name = "Clarke 1866" ∧ Describes e (31891032/5) (some (31782919/5)) none :=
  C124_ellps float [⟨"proj".toList, some "longlat".toList⟩, ⟨"ellps".toList, some "clrk66".toList⟩, ⟨"no_defs".toList, none⟩]
    (by simp only [List.forall_mem_cons, Param.Clean]; simp) "clrk66".toList (by simp) (by simp) _ rfl

example (float : Str → Except Err ℚ) : ∃ e r, rows.lookup "airy".toList = some r ∧
    parseEllipsoid float ["+proj=tmerc".toList, "+datum=OSGB36".toList] = .ok e ∧ e.name = r.name ∧ Describes e r.a r.b r.rf :=
  C124_datum_partial float [⟨"proj".toList, some "tmerc".toList⟩, ⟨"datum".toList, some "OSGB36".toList⟩]
    (by simp only [List.forall_mem_cons, Param.Clean]; simp) "OSGB36".toList (by simp) (by simp) (by simp) _ rfl (by decide)

/-- A reader of two numbers. -/
def someFloat (v : Str) : Except Err ℚ := if v = "50".toList then .ok 50 else if v = "48".toList then .ok 48 else if v = "0.04".toList then .ok (1 / 25)
  else .error .valueError

example : parseEllipsoid someFloat ["+b=48".toList, "+proj=longlat".toList, "+a=50".toList] = .ok ⟨"Unknown", 50, some 48, some ((50 - 48) / 50)⟩ :=
  C124_axes_partial someFloat [⟨['b'], some "48".toList⟩, ⟨"proj".toList, some "longlat".toList⟩, ⟨['a'], some "50".toList⟩]
    (by simp only [List.forall_mem_cons, Param.Clean]; simp) "50".toList "48".toList 50 48 (by simp) (by simp) rfl rfl (by norm_num) (by norm_num)
    (by simp) (by simp)

example : parseEllipsoid someFloat ["+proj=longlat".toList, "+a=50".toList, "+f=0.04".toList] =
    .ok ⟨"Unknown", 50, some (50 * (1 - 1 / 25)), some (1 / 25)⟩ :=
  C124_flattening_partial someFloat [⟨"proj".toList, some "longlat".toList⟩, ⟨['a'], some "50".toList⟩, ⟨['f'], some "0.04".toList⟩]
    (by simp only [List.forall_mem_cons, Param.Clean]; simp) "50".toList "0.04".toList 50 (1 / 25) (by simp) (by simp) rfl rfl (by norm_num) (by norm_num)
    (by simp) (by simp)

/-- A sphere by its radius is refused. -/
example (float : Str → Except Err ℚ) : parseEllipsoid float ["+proj=longlat".toList, "+R=6371000".toList] = .error .other :=
  C124_refused float [⟨"proj".toList, some "longlat".toList⟩, ⟨"R".toList, some "6371000".toList⟩]
    (by simp only [List.forall_mem_cons, Param.Clean]; simp) (by simp) (Or.inl (by simp))

example (float : Str → Except Err ℚ) : ∃ g r, rows.lookup "bessel".toList = some r ∧
    fromWkt float ["+proj=longlat".toList, "+datum=potsdam".toList, "+no_defs".toList] = .ok g ∧ g.name = "potsdam".toList ∧
    g.ellipsoid.name = r.name ∧ Describes g.ellipsoid r.a r.b r.rf :=
  (C124_wkt_partial float [⟨"proj".toList, some "longlat".toList⟩] (by simp only [List.forall_mem_cons, Param.Clean]; simp)
    ⟨"datum".toList, some "potsdam".toList⟩ [⟨"no_defs".toList, none⟩] (by simp [Param.Clean]) (by simp)).2 _ _ rfl rfl (by decide)

end Karta.Ellps
