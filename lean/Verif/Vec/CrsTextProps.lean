import Verif.Vec.CrsText
import Mathlib.Data.List.Basic

/-!
# C163: text descriptions of coordinate systems
-/

namespace Karta.CrsText
open Karta

/-! ### Specification -/

/-- `pat` occurs in `s`. -/
def Within (pat s : Str) : Prop := ∃ a b, s = a ++ pat ++ b

/-- None of the two misspelt names occurs. -/
def Clear (s : Str) : Prop := ¬ Within latlon s ∧ ¬ Within lonlat s

/-- `+proj=NAME…`. -/
def definition (name rest : Str) : Str := ['+', 'p', 'r', 'o', 'j', '='] ++ name ++ rest

/-- The other parameters of a definition: nothing, or a blank and parameters without these names. -/
def Rest (r : Str) : Prop := (r = [] ∨ r.head? = some ' ') ∧ Clear r

variable {S : Type}

/-- OSR reads and writes systems as proj (`read`) does, except that proj has other spellings for geographical systems. -/
structure Agrees (o : Osr S) (read : Str → Option S) : Prop where
  lonlat : ∀ r, Rest r → read (definition lonlat r) = read (definition longlat r) ∧ read (definition lonlat r) = read (definition latlong r)
  latlon : ∀ r, Rest r → read (definition latlon r) = read (definition latlong r)
  known : ∀ r, Rest r → o.fromProj4 (definition longlat r) = read (definition longlat r) ∧
    o.fromProj4 (definition latlong r) = read (definition latlong r)
  clear : ∀ t, Clear t → o.fromProj4 t = read t
  wkt : ∀ s, o.fromWkt (o.toWkt s) = some s
  proj4 : ∀ s, read (o.toProj4 s) = some s

/-! ### `replace` -/

theorem replaceGo_clear (pat new : Str) (s : Str) (h : ¬ Within pat s) : replaceGo pat new 0 s = s := by
  induction s with
  | nil => rw [replaceGo]
  | cons c cs ih =>
    rw [replaceGo, if_neg]
    · rw [ih]
      rintro ⟨a, b, e⟩
      exact h ⟨c :: a, b, by rw [e]; rfl⟩
    · intro hp
      rw [List.isPrefixOf_iff_prefix] at hp
      obtain ⟨b, hb⟩ := hp
      exact h ⟨[], b, by rw [← hb]; rfl⟩

theorem clear_cons {c : Char} {s : Str} (h : Clear s) (hl : c ≠ 'l') : Clear (c :: s) := by
  constructor
  · rintro ⟨a, b, e⟩
    cases a with
    | nil => simp only [latlon, List.nil_append, List.cons_append, List.cons.injEq] at e; exact hl e.1
    | cons d a => simp only [List.cons_append, List.cons.injEq] at e; exact h.1 ⟨a, b, by rw [e.2]⟩
  · rintro ⟨a, b, e⟩
    cases a with
    | nil => simp only [lonlat, List.nil_append, List.cons_append, List.cons.injEq] at e; exact hl e.1
    | cons d a => simp only [List.cons_append, List.cons.injEq] at e; exact h.2 ⟨a, b, by rw [e.2]⟩

theorem clear_prefix {s t : Str} (h : Clear (s ++ t)) : Clear s := by
  constructor
  · rintro ⟨a, b, rfl⟩; exact h.1 ⟨a, b ++ t, by simp⟩
  · rintro ⟨a, b, rfl⟩; exact h.2 ⟨a, b ++ t, by simp⟩

theorem forOsr_clear {s : Str} (h : Clear s) : forOsr s = s := by
  unfold forOsr replace
  rw [replaceGo_clear _ _ _ h.1, replaceGo_clear _ _ _ h.2]

/-- The other parameters pass both replacements. -/
theorem rest_go {r : Str} (h : Rest r) : replaceGo latlon latlong 0 r = r ∧ replaceGo lonlat longlat 0 r = r ∧ replaceGo lonlat latlong 0 r = r :=
  ⟨replaceGo_clear _ _ _ h.2.1, replaceGo_clear _ _ _ h.2.2, replaceGo_clear _ _ _ h.2.2⟩

theorem rest_cases {r : Str} (h : Rest r) : r = [] ∨ ∃ t, r = ' ' :: t := by
  rcases h.1 with h | h
  · exact .inl h
  · cases r with
    | nil => cases h
    | cons c t => simp only [List.head?_cons, Option.some.injEq] at h; exact .inr ⟨t, by rw [h]⟩

/-- What becomes of the four names. -/
theorem forOsr_names {r : Str} (h : Rest r) :
    forOsr (definition lonlat r) = definition longlat r ∧ forOsr (definition longlat r) = definition longlat r ∧
    forOsr (definition latlon r) = definition latlong r ∧ forOsr (definition latlong r) = definition (latlong ++ ['g']) r ∧
    forGdal (definition lonlat r) = definition latlong r ∧ forGdal (definition longlat r) = definition longlat r ∧
    forGdal (definition latlong r) = definition latlong r ∧ forGdal (definition latlon r) = definition latlon r := by
  obtain ⟨h1, h2, h3⟩ := rest_go h
  rcases rest_cases h with rfl | ⟨t, rfl⟩
  · decide
  · simp only [latlon, lonlat, latlong, longlat] at h1 h2 h3
    simp [forOsr, forGdal, replace, definition, latlon, lonlat, latlong, longlat, replaceGo, List.isPrefixOf]
    simp [replaceGo, List.isPrefixOf] at h1 h2 h3
    rw [h1]
    exact ⟨h2, h3⟩

/-! ### C163 -/

/-- C163, part: a system made from a definition that has none of the misspelt names, or one of the two that are corrected, has a WKT text, which
describes this system. -/
theorem C163_wkt_partial (o : Osr S) (read : Str → Option S) (ha : Agrees o read) (c : Refs) (p : Str) (s : S) (hw : c.wkt = none)
    (hp : c.proj4 = some p) (hs : read p = some s)
    (hform : Clear p ∨ (∃ r, Rest r ∧ p = definition lonlat r) ∨ ∃ r, Rest r ∧ p = definition latlon r) :
    ∃ w, getWkt o c = .ok w ∧ o.fromWkt w = some s := by
  have key : o.fromProj4 (forOsr p) = some s := by
    rcases hform with h | ⟨r, hr, rfl⟩ | ⟨r, hr, rfl⟩
    · rw [forOsr_clear h, ha.clear p h, hs]
    · rw [(forOsr_names hr).1, (ha.known r hr).1, ← (ha.lonlat r hr).1, hs]
    · rw [(forOsr_names hr).2.2.1, (ha.known r hr).2, ← ha.latlon r hr, hs]
  refine ⟨o.toWkt s, ?_, ha.wkt s⟩
  unfold getWkt
  rw [hw, hp]
  dsimp only
  rw [key, export']

/-- C163: a system with a definition gives it out as it is. -/
theorem C163_proj4_own (o : Osr S) (c : Refs) (p : Str) (hp : c.proj4 = some p) : getProj4 o c = .ok p := by
  unfold getProj4; rw [hp]

/-- C163: a system with a WKT text gives it out as it is. -/
theorem C163_wkt_own (o : Osr S) (c : Refs) (w : Str) (hw : c.wkt = some w) : getWkt o c = .ok w := by
  unfold getWkt; rw [hw]

/-- C163: a system with a WKT text and no definition has one, which describes this system. -/
theorem C163_proj4_of_wkt (o : Osr S) (read : Str → Option S) (ha : Agrees o read) (c : Refs) (w : Str) (s : S) (hp : c.proj4 = none)
    (hw : c.wkt = some w) (hs : o.fromWkt w = some s) : ∃ p, getProj4 o c = .ok p ∧ read p = some s := by
  refine ⟨o.toProj4 s, ?_, ha.proj4 s⟩
  unfold getProj4
  rw [hp, hw]
  dsimp only
  rw [hs, export']

/-- C163: a system with neither raises `AttributeError`. -/
theorem C163_neither (o : Osr S) : getProj4 o ⟨none, none⟩ = .error .attributeError ∧ getWkt o ⟨none, none⟩ = .error .attributeError ∧
    srsFromCrs o ⟨none, none⟩ = .error .attributeError := ⟨rfl, rfl, rfl⟩

/-- C163, part: the reference written to raster files is that of the system, except for one made with `latlon`. -/
theorem C163_raster_partial (o : Osr S) (read : Str → Option S) (ha : Agrees o read) (c : Refs) (p : Str) (hp : c.proj4 = some p)
    (hform : Clear p ∨ (∃ r, Rest r ∧ p = definition lonlat r) ∨ ∃ r, Rest r ∧ p = definition latlong r) :
    srsFromCrs o c = .ok (read p) := by
  unfold srsFromCrs
  rw [C163_proj4_own o c p hp]
  dsimp only
  rcases hform with h | ⟨r, hr, rfl⟩ | ⟨r, hr, rfl⟩
  · rw [forGdal, replace, replaceGo_clear _ _ _ h.2, ha.clear p h]
  · rw [(forOsr_names hr).2.2.2.2.1, (ha.known r hr).2, ← (ha.lonlat r hr).2]
  · rw [(forOsr_names hr).2.2.2.2.2.2.1, (ha.known r hr).2]

theorem strip_definition (name s : Str) (hn : name.getLast?.isSome = true) (hb : ∀ c, name.getLast? = some c → c ≠ ' ') :
    ∃ r t, strip (definition name s) = definition name r ∧ r ++ t = s := by
  have hl : ∀ u : Str, ∃ t, (u.reverse.dropWhile (· == ' ')).reverse ++ t = u := by
    intro u
    refine ⟨(u.reverse.takeWhile (· == ' ')).reverse, ?_⟩
    rw [← List.reverse_append, List.takeWhile_append_dropWhile, List.reverse_reverse]
  obtain ⟨t, ht⟩ := hl s
  refine ⟨(s.reverse.dropWhile (· == ' ')).reverse, t, ?_, ht⟩
  obtain ⟨c, hc⟩ := Option.isSome_iff_exists.1 hn
  obtain ⟨ini, rfl⟩ : ∃ ini, name = ini ++ [c] := ⟨name.dropLast, by
    have hne : name ≠ [] := by rintro rfl; cases hc
    rw [List.getLast?_eq_some_getLast hne] at hc
    rw [← Option.some.inj hc, List.dropLast_append_getLast hne]⟩
  have hcb : (c == ' ') = false := beq_eq_false_iff_ne.2 (hb c hc)
  have gen : ∀ u : Str, ((definition (ini ++ [c]) u).reverse.dropWhile (· == ' ')).reverse =
      definition (ini ++ [c]) (u.reverse.dropWhile (· == ' ')).reverse := by
    intro u
    unfold definition
    rw [List.reverse_append]
    generalize hv : u.reverse = v
    clear hv
    induction v with
    | nil => simp [hcb]
    | cons d v ih =>
      by_cases hd : (d == ' ') = true
      · simp only [List.cons_append, List.dropWhile_cons, hd, if_true]; exact ih
      · simp only [List.cons_append, List.dropWhile_cons, hd, if_false]; simp
  unfold strip
  have : (definition (ini ++ [c]) s).dropWhile (· == ' ') = definition (ini ++ [c]) s := by
    unfold definition; simp
  rw [this, gen]

/-- C163: every geographical system has a WKT text, which describes this system. -/
theorem C163_geographical (o : Osr S) (read : Str → Option S) (ha : Agrees o read) (spheroid datum : Str)
    (hc : Clear ([' '] ++ spheroid ++ [' '] ++ datum)) (p : Str) (hp : (geographical spheroid datum).proj4 = some p) (s : S) (hs : read p = some s) :
    ∃ w, getWkt o (geographical spheroid datum) = .ok w ∧ o.fromWkt w = some s := by
  refine C163_wkt_partial o read ha _ p s rfl hp hs (.inr (.inl ?_))
  obtain ⟨r, t, h1, h2⟩ := strip_definition lonlat ([' '] ++ spheroid ++ [' '] ++ datum) rfl (by decide)
  refine ⟨r, ⟨?_, ?_⟩, ?_⟩
  · cases r with
    | nil => exact .inl rfl
    | cons d r => simp only [List.cons_append, List.nil_append, List.cons.injEq] at h2; exact .inr (by rw [h2.1]; rfl)
  · rw [← h2] at hc; exact clear_prefix hc
  · simp only [geographical, Option.some.injEq] at hp
    rw [← hp, ← h1, definition]
    simp

/-- A projection by the name of `latlong`, which OSR itself would understand, is spoiled by the correction: the system has an empty WKT text. -/
theorem C163_violated_latlong (o : Osr S) (r : Str) (hr : Rest r) (hno : o.fromProj4 (definition (latlong ++ ['g']) r) = none) :
    getWkt o (projected (definition latlong r)) = .ok [] := by
  unfold getWkt projected
  dsimp only
  rw [(forOsr_names hr).2.2.2.1, hno, export']

/-- Raster files written with a system made with `latlon` have no reference, if OSR does not know this name; the WKT text of the system is right. -/
theorem C163_violated_raster (o : Osr S) (r : Str) (hr : Rest r) (hno : o.fromProj4 (definition latlon r) = none) :
    srsFromCrs o (projected (definition latlon r)) = .ok none := by
  unfold srsFromCrs getProj4 projected
  dsimp only
  rw [(forOsr_names hr).2.2.2.2.2.2.2, hno]

/-! ### Concrete cases -/

/-- An interface that knows one system by all names but two. -/
def toy : Osr Unit where
  fromProj4 t := if (definition (latlong ++ ['g']) []).isPrefixOf t ∨ (definition lonlat []).isPrefixOf t then none else some ()
  fromWkt _ := some ()
  toProj4 _ := definition longlat []
  toWkt _ := ['G', 'E', 'O', 'G', 'C', 'S']

theorem within_of_prefix {a b pat t : Str} (h : (a ++ pat ++ b).isPrefixOf t = true) : Within pat t := by
  rw [List.isPrefixOf_iff_prefix] at h
  obtain ⟨u, hu⟩ := h
  exact ⟨a, b ++ u, by rw [← hu]; simp⟩

theorem toy_agrees : Agrees toy (fun _ => some ()) where
  lonlat _ _ := ⟨rfl, rfl⟩
  latlon _ _ := rfl
  known r hr := by
    rcases rest_cases hr with rfl | ⟨t, rfl⟩
    · decide
    · constructor <;> simp [toy, definition, latlong, longlat, lonlat, List.isPrefixOf]
  clear t ht := by
    show (if _ then none else some ()) = some ()
    rw [if_neg]
    rintro (h | h)
    · exact ht.1 (within_of_prefix (a := ['+', 'p', 'r', 'o', 'j', '=']) (b := ['g', 'g']) h)
    · exact ht.2 (within_of_prefix (a := ['+', 'p', 'r', 'o', 'j', '=']) (b := []) h)
  wkt _ := rfl
  proj4 _ := rfl

/-- A string is clear if it is shorter than the names. -/
theorem clear_short {s : Str} (h : s.length < 6) : Clear s := by
  constructor <;> (rintro ⟨a, b, rfl⟩; simp [latlon, lonlat] at h; omega)

/-- Parameters of a definition. -/
theorem rest_example : Rest " +no".toList := ⟨.inr rfl, clear_short (by decide)⟩

example : getWkt toy (projected (definition lonlat " +no".toList)) = .ok "GEOGCS".toList := by decide

example : getWkt toy (projected (definition latlong " +no".toList)) = .ok [] := C163_violated_latlong toy _ rest_example (by decide)

example : ∃ w, getWkt toy (projected (definition latlon " +no".toList)) = .ok w ∧ toy.fromWkt w = some () :=
  C163_wkt_partial toy _ toy_agrees _ _ () rfl rfl rfl (.inr (.inr ⟨_, rest_example, rfl⟩))

example : (geographical "+a".toList []).proj4 = some "+proj=lonlat +a".toList := by decide

end Karta.CrsText
