import Verif.Vec.Shape
import Mathlib.Data.Nat.Digits.Lemmas
import Mathlib.Data.List.Perm.Subperm
import Mathlib.Data.List.Nodup
import Mathlib.Tactic.Linarith

/-!
Properties C54 (column names) and C82 (contents of the attribute table).
-/

namespace Karta.Shape
open Karta

/-! ### Decimal numerals -/

theorem digitChar_inj {a b : Nat} (ha : a < 10) (hb : b < 10) (h : Nat.digitChar a = Nat.digitChar b) : a = b := by
  have : ∀ a < 10, ∀ b < 10, Nat.digitChar a = Nat.digitChar b → a = b := by decide
  exact this a ha b hb h

theorem map_digitChar_inj : ∀ (l m : List Nat), (∀ x ∈ l, x < 10) → (∀ x ∈ m, x < 10) →
    l.map Nat.digitChar = m.map Nat.digitChar → l = m
  | [], [], _, _, _ => rfl
  | [], _ :: _, _, _, h => by cases h
  | _ :: _, [], _, _, h => by cases h
  | a :: l, b :: m, hl, hm, h => by
    simp only [List.map_cons, List.cons.injEq] at h
    rw [digitChar_inj (hl a List.mem_cons_self) (hm b List.mem_cons_self) h.1,
      map_digitChar_inj l m (fun x hx => hl x (List.mem_cons_of_mem _ hx)) (fun x hx => hm x (List.mem_cons_of_mem _ hx)) h.2]

theorem decimal_inj {i j : Nat} (h : decimal i = decimal j) : i = j := by
  have h1 := map_digitChar_inj _ _ (fun x hx => Nat.digits_lt_base (by omega) (List.mem_reverse.mp hx))
    (fun x hx => Nat.digits_lt_base (by omega) (List.mem_reverse.mp hx)) h
  exact Nat.digits_inj_iff.mp (List.reverse_injective h1)

theorem decimal_length (i : Nat) : (decimal i).length = (Nat.digits 10 i).length := by simp [decimal]

theorem decimal_length_eq {i d : Nat} (h1 : 10 ^ d ≤ i) (h2 : i < 10 ^ (d + 1)) : (decimal i).length = d + 1 := by
  rw [decimal_length]
  have a := (Nat.digits_length_le_iff (b := 10) (by omega) (k := d + 1) i).mpr h2
  have b : ¬ (Nat.digits 10 i).length ≤ d := fun hc =>
    absurd ((Nat.digits_length_le_iff (b := 10) (by omega) (k := d) i).mp hc) (by omega)
  omega

theorem decimal_length_le {i d : Nat} (h2 : i < 10 ^ d) : (decimal i).length ≤ d := by
  rw [decimal_length]
  exact (Nat.digits_length_le_iff (b := 10) (by omega) i).mpr h2

theorem decimal_last (i : Nat) (h : 0 < i) : ∃ p c, decimal i = p ++ [c] ∧ c ∈ "0123456789".toList := by
  have hn : Nat.digits 10 i ≠ [] := Nat.digits_ne_nil_iff_ne_zero.mpr (by omega)
  cases hd : Nat.digits 10 i with
  | nil => exact absurd hd hn
  | cons a l =>
    refine ⟨l.reverse.map Nat.digitChar, Nat.digitChar a, by simp [decimal, hd], ?_⟩
    have ha : a < 10 := Nat.digits_lt_base (b := 10) (by omega) (hd ▸ List.mem_cons_self : a ∈ Nat.digits 10 i)
    have : ∀ a < 10, Nat.digitChar a ∈ "0123456789".toList := by decide
    exact this a ha

/-! ### The search for a free name -/

/-- The name tried after `k` rounds. -/
def tried (key : Name) (i : Nat) : Nat → Name
  | 0 => key
  | k + 1 => renumber (tried key i k) (i + k)

theorem tried_shift (key : Name) (i : Nat) : ∀ k, tried key i (k + 1) = tried (renumber key i) (i + 1) k
  | 0 => rfl
  | k + 1 => by
    have h := tried_shift key i k
    show renumber (tried key i (k + 1)) (i + (k + 1)) = renumber (tried (renumber key i) (i + 1) k) (i + 1 + k)
    rw [h]; congr 1; omega

theorem clashLoop_spec (taken : List Name) : ∀ (fuel : Nat) (key : Name) (i : Nat) (r : Name),
    clashLoop taken fuel key i = some r → r ∉ taken ∧ ∃ k, r = tried key i k ∧ ∀ j < k, tried key i j ∈ taken
  | 0, key, i, r, h => by
    unfold clashLoop at h
    by_cases hc : key ∈ taken
    · rw [if_pos hc] at h; cases h
    · rw [if_neg hc] at h; cases h
      exact ⟨hc, 0, rfl, fun j hj => absurd hj (by omega)⟩
  | fuel + 1, key, i, r, h => by
    rw [clashLoop] at h
    by_cases hc : key ∈ taken
    · rw [if_pos hc] at h
      obtain ⟨h1, k, h2, h3⟩ := clashLoop_spec taken fuel _ _ r h
      refine ⟨h1, k + 1, by rw [h2, tried_shift], fun j hj => ?_⟩
      cases j with
      | zero => exact hc
      | succ j => rw [tried_shift]; exact h3 j (by omega)
    · rw [if_neg hc] at h; cases h
      exact ⟨hc, 0, rfl, fun j hj => absurd hj (by omega)⟩

theorem clashLoop_none (taken : List Name) : ∀ (fuel : Nat) (key : Name) (i : Nat),
    clashLoop taken fuel key i = none → ∀ j ≤ fuel, tried key i j ∈ taken
  | 0, key, i, h, j, hj => by
    unfold clashLoop at h
    by_cases hc : key ∈ taken
    · have : j = 0 := by omega
      subst this; exact hc
    · rw [if_neg hc] at h; cases h
  | fuel + 1, key, i, h, j, hj => by
    rw [clashLoop] at h
    by_cases hc : key ∈ taken
    · rw [if_pos hc] at h
      cases j with
      | zero => exact hc
      | succ j => rw [tried_shift]; exact clashLoop_none taken fuel _ _ h j (by omega)
    · rw [if_neg hc] at h; cases h

/-- Two names tried for numbers of equally many digits differ. -/
theorem tried_inj (key : Name) {d m n : Nat} (hm : 10 ^ d ≤ 2 + m) (hm' : 2 + m < 10 ^ (d + 1)) (hn : 10 ^ d ≤ 2 + n)
    (hn' : 2 + n < 10 ^ (d + 1)) (h : tried key 2 (m + 1) = tried key 2 (n + 1)) : m = n := by
  have h' : renumber (tried key 2 m) (2 + m) = renumber (tried key 2 n) (2 + n) := h
  unfold renumber at h'
  have := (List.append_inj' h' (by rw [decimal_length_eq hm hm', decimal_length_eq hn hn'])).2
  have := decimal_inj this
  omega

/-- If the names of all numbers of `d + 1` digits are taken, there are at least as many taken names. -/
theorem all_taken (taken : List Name) (key : Name) (d : Nat) (hd : 1 ≤ d)
    (h : ∀ k, 10 ^ d ≤ 2 + k → 2 + k < 10 ^ (d + 1) → tried key 2 (k + 1) ∈ taken) : 9 * 10 ^ d ≤ taken.length := by
  have hp : 10 ≤ 10 ^ d := by
    calc 10 = 10 ^ 1 := (pow_one 10).symm
      _ ≤ 10 ^ d := Nat.pow_le_pow_right (by omega) hd
  have hq : 10 ^ (d + 1) = 10 * 10 ^ d := by rw [pow_succ]; ring
  generalize hP : 10 ^ d = P at *
  have hnd : ((List.range (9 * P)).map fun t => tried key 2 (P - 2 + t + 1)).Nodup := by
    refine List.Nodup.map_on (fun x hx y hy hxy => ?_) List.nodup_range
    rw [List.mem_range] at hx hy
    have := tried_inj key (d := d) (m := P - 2 + x) (n := P - 2 + y) (by omega) (by omega) (by omega) (by omega) hxy
    omega
  have hsub : ((List.range (9 * P)).map fun t => tried key 2 (P - 2 + t + 1)) ⊆ taken := by
    intro x hx
    obtain ⟨t, ht, rfl⟩ := List.mem_map.mp hx
    rw [List.mem_range] at ht
    exact h _ (by omega) (by omega)
  have := (List.subperm_of_subset hnd hsub).length_le
  simpa using this

/-- The search ends, whatever names are taken. -/
theorem clashLoop_ends (taken : List Name) (key : Name) : ∃ F, ∀ fuel, F ≤ fuel → (clashLoop taken fuel key 2).isSome := by
  refine ⟨10 ^ (taken.length + 2), fun fuel hf => ?_⟩
  by_contra hc
  have hn : clashLoop taken fuel key 2 = none := by simpa using hc
  have h := all_taken taken key (taken.length + 1) (by omega) (fun k _ hk => clashLoop_none taken fuel key 2 hn _ (by
    have : k < 10 ^ (taken.length + 1 + 1) := by omega
    have e : taken.length + 1 + 1 = taken.length + 2 := rfl
    rw [e] at this
    omega))
  have h2 : taken.length + 1 < 10 ^ (taken.length + 1) := Nat.lt_pow_self (by omega)
  omega

theorem renumber_length (key : Name) (i : Nat) : (renumber key i).length = max key.length (decimal i).length := by
  unfold renumber
  rw [List.length_append, List.length_take]
  omega

theorem tried_length (key : Name) {D : Nat} (hk : key.length ≤ D) : ∀ k, 2 + k ≤ 10 ^ D → (tried key 2 k).length ≤ D
  | 0, _ => hk
  | k + 1, h => by
    show (renumber (tried key 2 k) (2 + k)).length ≤ D
    rw [renumber_length]
    exact max_le (tried_length key hk k (by omega)) (decimal_length_le (by omega))

/-- With fewer than nine thousand million names taken, the name found is not longer than ten characters. -/
theorem clashLoop_length {taken : List Name} {key r : Name} {fuel : Nat} (hk : key.length ≤ 10)
    (hn : taken.length < 9 * 10 ^ 9) (h : clashLoop taken fuel key 2 = some r) : r.length ≤ 10 := by
  obtain ⟨_, k, rfl, hk2⟩ := clashLoop_spec taken fuel key 2 r h
  refine tried_length key hk k ?_
  by_contra hc
  have := all_taken taken key 9 (by omega) (fun j _ hj => hk2 (j + 1) (by
    have e : 10 ^ (9 + 1) = 10 ^ 10 := rfl
    rw [e] at hj
    omega))
  omega

/-- A name found after a clash ends with a digit. -/
theorem clashLoop_digit {taken : List Name} {key r : Name} {fuel : Nat} (h : clashLoop taken fuel key 2 = some r) :
    r = key ∨ ∃ p c, r = p ++ [c] ∧ c ∈ "0123456789".toList := by
  obtain ⟨_, k, rfl, _⟩ := clashLoop_spec taken fuel key 2 r h
  cases k with
  | zero => exact Or.inl rfl
  | succ k =>
    right
    obtain ⟨p, c, hp, hc⟩ := decimal_last (2 + k) (by omega)
    exact ⟨_ ++ p, c, by show renumber _ _ = _; unfold renumber; rw [hp, List.append_assoc], hc⟩

/-! ### The columns -/

section
variable {V T : Type _}

/-- What is known of the columns added for the attributes `ks` after `cols`. -/
structure Added (up : Char → List Char) (ftype : V → Except Err T) (objs : List (Props V)) (cols : List (Column T))
    (ks : List Name) (new : List (Column T)) : Prop where
  keys : List.Sublist (new.map (·.key)) ks
  typed : ∀ c ∈ new, inferFieldType ftype objs c.key = .ok (some c.typ)
  all : ∀ k ∈ ks, inferFieldType ftype objs k = .ok none ∨ ∃ c ∈ new, c.key = k
  names : (cols.map (·.name)).Nodup → ((cols ++ new).map (·.name)).Nodup
  found : ∀ c ∈ new, ∃ fuel taken, taken.length < cols.length + new.length ∧
    clashLoop taken fuel (baseName up c.key) 2 = some c.name

theorem columns_spec (up : Char → List Char) (ftype : V → Except Err T) (objs : List (Props V)) (fuel : Nat) :
    ∀ (ks : List Name) (cols out : List (Column T)), columns up ftype objs fuel cols ks = some (.ok out) →
      ∃ new, out = cols ++ new ∧ Added up ftype objs cols ks new
  | [], cols, out, h => by
    rw [columns] at h
    cases h
    exact ⟨[], by simp, ⟨by simp, by simp, by simp, fun h => by simpa using h, by simp⟩⟩
  | k :: ks, cols, out, h => by
    rw [columns] at h
    cases hc : clashLoop (cols.map (·.name)) fuel (baseName up k) 2 with
    | none => rw [hc] at h; cases h
    | some name =>
      rw [hc] at h
      simp only at h
      cases hi : inferFieldType ftype objs k with
      | error e => rw [hi] at h; cases h
      | ok o =>
        cases o with
        | none =>
          rw [hi] at h
          obtain ⟨new, h1, h2⟩ := columns_spec up ftype objs fuel ks cols out h
          refine ⟨new, h1, ⟨h2.keys.cons k, h2.typed, fun k' hk' => ?_, h2.names, h2.found⟩⟩
          rcases List.mem_cons.mp hk' with rfl | hk'
          · exact Or.inl hi
          · exact h2.all k' hk'
        | some t =>
          rw [hi] at h
          obtain ⟨new, h1, h2⟩ := columns_spec up ftype objs fuel ks _ out h
          refine ⟨⟨name, t, k⟩ :: new, by rw [h1]; simp, ⟨?_, fun c hcm => ?_, fun k' hk' => ?_, fun hn => ?_, fun c hcm => ?_⟩⟩
          · exact List.Sublist.cons_cons k h2.keys
          · rcases List.mem_cons.mp hcm with rfl | hcm
            · exact hi
            · exact h2.typed c hcm
          · rcases List.mem_cons.mp hk' with rfl | hk'
            · exact Or.inr ⟨_, List.mem_cons_self, rfl⟩
            · rcases h2.all k' hk' with h | ⟨c, hcm, hck⟩
              · exact Or.inl h
              · exact Or.inr ⟨c, List.mem_cons_of_mem _ hcm, hck⟩
          · have h3 := (clashLoop_spec _ _ _ _ _ hc).1
            have h4 : ((cols ++ [(⟨name, t, k⟩ : Column T)]).map (·.name)).Nodup := by
              rw [List.map_append]
              refine List.Nodup.append hn (by simp) ?_
              simp only [List.map_cons, List.map_nil, List.disjoint_singleton]
              exact h3
            have := h2.names h4
            simpa using this
          · rcases List.mem_cons.mp hcm with rfl | hcm
            · exact ⟨fuel, cols.map (·.name), by simp, hc⟩
            · obtain ⟨f, tk, h5, h6⟩ := h2.found c hcm
              refine ⟨f, tk, ?_, h6⟩
              simp only [List.length_append, List.length_cons, List.length_nil] at h5 ⊢
              omega

/-- **C54.**  However many attributes clash, the search for names ends: with enough rounds the table is made or an error
of the type search is raised. -/
theorem C54_terminates (up : Char → List Char) (ftype : V → Except Err T) (objs : List (Props V)) (ks : List Name) :
    ∀ cols, ∃ F, ∀ fuel, F ≤ fuel → (columns up ftype objs fuel cols ks).isSome := by
  induction ks with
  | nil => exact fun cols => ⟨0, fun fuel _ => rfl⟩
  | cons k ks ih =>
    intro cols
    obtain ⟨F1, h1⟩ := clashLoop_ends (cols.map (·.name)) (baseName up k)
    -- the name found does not depend on the number of rounds allowed
    have hsame : ∀ f g r s, clashLoop (cols.map (·.name)) f (baseName up k) 2 = some r →
        clashLoop (cols.map (·.name)) g (baseName up k) 2 = some s → r = s := by
      intro f g r s hr hs
      obtain ⟨r1, kr, r2, r3⟩ := clashLoop_spec _ _ _ _ _ hr
      obtain ⟨s1, ks', s2, s3⟩ := clashLoop_spec _ _ _ _ _ hs
      rcases lt_trichotomy kr ks' with h | h | h
      · exact absurd (s3 kr h) (r2 ▸ r1)
      · rw [r2, s2, h]
      · exact absurd (r3 ks' h) (s2 ▸ s1)
    obtain ⟨name, hname⟩ := Option.isSome_iff_exists.mp (h1 F1 le_rfl)
    have hall : ∀ f, F1 ≤ f → clashLoop (cols.map (·.name)) f (baseName up k) 2 = some name := by
      intro f hf
      obtain ⟨n', hn'⟩ := Option.isSome_iff_exists.mp (h1 f hf)
      rw [hn', hsame f F1 n' name hn' hname]
    cases hi : inferFieldType ftype objs k with
    | error e => exact ⟨F1, fun f hf => by rw [columns, hall f hf, hi]; rfl⟩
    | ok o =>
      cases o with
      | none =>
        obtain ⟨F2, h2⟩ := ih cols
        exact ⟨max F1 F2, fun f hf => by
          rw [columns, hall f ((le_max_left _ _).trans hf), hi]
          exact h2 f ((le_max_right _ _).trans hf)⟩
      | some t =>
        obtain ⟨F2, h2⟩ := ih (cols ++ [⟨name, t, k⟩])
        exact ⟨max F1 F2, fun f hf => by
          rw [columns, hall f ((le_max_left _ _).trans hf), hi]
          exact h2 f ((le_max_right _ _).trans hf)⟩

/-- **C54.**  Whatever the attributes are called, no two columns have the same name. -/
theorem C54_distinct {up : Char → List Char} {ftype : V → Except Err T} {objs : List (Props V)} {fuel : Nat}
    {ks : List Name} {cols : List (Column T)} (h : columns up ftype objs fuel [] ks = some (.ok cols)) :
    cols.Pairwise fun c c' => c.name ≠ c'.name := by
  obtain ⟨new, h1, h2⟩ := columns_spec up ftype objs fuel ks [] cols h
  have := h2.names (by simp)
  rw [← h1, List.Nodup, List.pairwise_map] at this
  exact this

/-- **C54 (partial).**  If no character of the attribute names becomes longer in upper case, no column name has more than ten
characters (in tables of fewer than nine thousand million columns). -/
theorem C54_length_partial {up : Char → List Char} {ftype : V → Except Err T} {objs : List (Props V)} {fuel : Nat}
    {ks : List Name} {cols : List (Column T)} (h : columns up ftype objs fuel [] ks = some (.ok cols))
    (hup : ∀ k ∈ ks, ∀ c ∈ k, (up c).length ≤ 1) (hn : cols.length ≤ 9 * 10 ^ 9) :
    ∀ c ∈ cols, c.name.length ≤ 10 := by
  obtain ⟨new, h1, h2⟩ := columns_spec up ftype objs fuel ks [] cols h
  simp only [List.nil_append] at h1
  subst h1
  intro c hc
  obtain ⟨f, tk, h3, h4⟩ := h2.found c hc
  have hk : c.key ∈ ks := h2.keys.subset (List.mem_map_of_mem hc)
  refine clashLoop_length ?_ (by simp only [List.length_nil] at h3; omega) h4
  have : ∀ (l : List Char), (∀ x ∈ l, (up x).length ≤ 1) → (l.flatMap up).length ≤ l.length := by
    intro l hl
    induction l with
    | nil => simp
    | cons x l ih =>
      rw [List.flatMap_cons, List.length_append, List.length_cons]
      have := hl x List.mem_cons_self
      have := ih (fun y hy => hl y (List.mem_cons_of_mem _ hy))
      omega
  have h5 := this (c.key.take 10) (fun x hx => hup _ hk x (List.mem_of_mem_take hx))
  have h6 : (c.key.take 10).length ≤ 10 := by rw [List.length_take]; omega
  exact h5.trans h6

/-- **C54 (partial).**  A column is called `ID`, like the reserved first column but for case, only if an attribute is. -/
theorem C54_id_partial {up : Char → List Char} {ftype : V → Except Err T} {objs : List (Props V)} {fuel : Nat}
    {ks : List Name} {cols : List (Column T)} (h : columns up ftype objs fuel [] ks = some (.ok cols)) :
    ∀ c ∈ cols, c.name = "ID".toList → baseName up c.key = "ID".toList := by
  obtain ⟨new, h1, h2⟩ := columns_spec up ftype objs fuel ks [] cols h
  simp only [List.nil_append] at h1
  subst h1
  intro c hc hid
  obtain ⟨f, tk, _, h4⟩ := h2.found c hc
  rcases clashLoop_digit h4 with h | ⟨p, d, h, hd⟩
  · rw [← h]; exact hid
  · rw [hid] at h
    have e : "ID".toList = ['I'] ++ ['D'] := rfl
    rw [e] at h
    have := (List.append_inj' h rfl).2
    cases this
    exact absurd hd (by decide)

end

/-- **C54 is violated by an attribute called `id`**: the columns are then `id` and `ID`, which dBase does not tell apart. -/
theorem C54_violated_id : ∃ cols, columns (fun c => [c.toUpper]) (fun (_ : Unit) => (.ok () : Except Err Unit))
    [[("id".toList, ())]] 0 [] ["id".toList] = some (.ok cols) ∧ ∃ c ∈ cols, c.name = "id".toList.map Char.toUpper :=
  ⟨_, rfl, _, List.mem_cons_self, by decide⟩

/-- **C54 is violated by names with characters that grow in upper case**, such as `ß`. -/
theorem C54_violated_long (up : Char → List Char) (hup : up 'ß' = ['S', 'S']) : ∃ cols, columns up
    (fun (_ : Unit) => (.ok () : Except Err Unit)) [[(List.replicate 10 'ß', ())]] 0 [] [List.replicate 10 'ß'] =
      some (.ok cols) ∧ ∃ c ∈ cols, c.name.length = 20 := by
  refine ⟨_, rfl, _, List.mem_cons_self, ?_⟩
  show (baseName up (List.replicate 10 'ß')).length = 20
  simp [baseName, List.replicate, hup]

/-- A third attribute of a clashing name. -/
example : clashLoop ["POPULATION".toList, "POPULATIO2".toList] 10 (baseName (fun c => [c.toUpper]) "population_2000".toList) 2 =
    some "POPULATIO3".toList := by decide +kernel

/-! ### C82: the contents of the table -/

section
variable {V T : Type _}

theorem infer_some {ftype : V → Except Err T} {k : Name} {t : T} : ∀ {ps : List (Props V)},
    inferLoop ftype k ps = .ok (some t) → ∃ p ∈ ps, ∃ v, p.get k = .ok v ∧ ftype v = .ok t
  | [], h => by cases h
  | p :: ps, h => by
    rw [inferLoop] at h
    cases hg : p.get k with
    | error e => rw [hg] at h; cases h
    | ok v =>
      rw [hg] at h
      simp only at h
      cases hf : ftype v with
      | ok t' =>
        rw [hf] at h; cases h
        exact ⟨p, List.mem_cons_self, v, hg, hf⟩
      | error e =>
        rw [hf] at h
        cases e <;> simp only at h <;> try (cases h; done)
        obtain ⟨q, hq, w, h1, h2⟩ := infer_some h
        exact ⟨q, List.mem_cons_of_mem _ hq, w, h1, h2⟩

theorem infer_none {ftype : V → Except Err T} {k : Name} : ∀ {ps : List (Props V)},
    inferLoop ftype k ps = .ok none → ∀ p ∈ ps, ∃ v, p.get k = .ok v ∧ ftype v = .error .typeError
  | [], _ => fun _ h => by cases h
  | p :: ps, h => by
    rw [inferLoop] at h
    cases hg : p.get k with
    | error e => rw [hg] at h; cases h
    | ok v =>
      rw [hg] at h
      simp only at h
      cases hf : ftype v with
      | ok t' => rw [hf] at h; cases h
      | error e =>
        rw [hf] at h
        cases e <;> simp only at h <;> try (cases h; done)
        intro q hq
        rcases List.mem_cons.mp hq with rfl | hq
        · exact ⟨v, hg, hf⟩
        · exact infer_none h q hq

/-- **C82 (partial).**  Every attribute that all features share, with a storable value in one of the first hundred features, gets
exactly one column; no other attribute gets one. -/
theorem C82_columns_partial {up : Char → List Char} {ftype : V → Except Err T} {objs : List (Props V)} {fuel : Nat}
    {ks : List Name} {cols : List (Column T)} (hk : IsKeyOrder objs ks)
    (h : columns up ftype objs fuel [] ks = some (.ok cols)) :
    (∀ k ∈ ks, (∃ p ∈ objs.take 100, ∃ v t, p.get k = .ok v ∧ ftype v = .ok t) →
      ∃ c ∈ cols, c.key = k ∧ ∀ c' ∈ cols, c'.key = k → c' = c) ∧
    ∀ c ∈ cols, c.key ∈ ks ∧ ∃ p ∈ objs.take 100, ∃ v, p.get c.key = .ok v ∧ ftype v = .ok c.typ := by
  obtain ⟨new, h1, h2⟩ := columns_spec up ftype objs fuel ks [] cols h
  simp only [List.nil_append] at h1
  subst h1
  constructor
  · rintro k hkm ⟨p, hp, v, t, hv, ht⟩
    rcases h2.all k hkm with hn | ⟨c, hc, rfl⟩
    · obtain ⟨v', hv', ht'⟩ := infer_none hn p hp
      rw [hv] at hv'; cases hv'
      rw [ht] at ht'; cases ht'
    · refine ⟨c, hc, rfl, fun c' hc' he => ?_⟩
      have hnd : (cols.map (·.key)).Nodup := hk.1.sublist h2.keys
      exact List.inj_on_of_nodup_map hnd hc' hc he
  · intro c hc
    exact ⟨h2.keys.subset (List.mem_map_of_mem hc), infer_some (h2.typed c hc)⟩

theorem get_of_mem {p : Props V} {k : Name} (h : k ∈ p.map (·.1)) : ∃ v, p.get k = .ok v := by
  unfold Props.get
  cases hf : p.find? (fun kv => kv.1 = k) with
  | some kv => exact ⟨kv.2, rfl⟩
  | none =>
    rw [List.find?_eq_none] at hf
    obtain ⟨kv, hkv, rfl⟩ := List.mem_map.mp h
    exact absurd (decide_eq_true rfl) (hf kv hkv)

/-- **C82 (partial).**  Every feature's row is written, and holds, in each column, the feature's own value of the attribute
that the column stands for. -/
theorem C82_rows_partial {up : Char → List Char} {ftype : V → Except Err T} {objs : List (Props V)} {fuel : Nat}
    {ks : List Name} {cols : List (Column T)} (hk : IsKeyOrder objs ks)
    (h : columns up ftype objs fuel [] ks = some (.ok cols)) {p : Props V} (hp : p ∈ objs) (i : Nat) :
    ∃ vs, row cols i p = .ok (i, vs) ∧ vs.map (·.1) = cols.map (·.name) ∧
      ∀ c ∈ cols, ∃ v, p.get c.key = .ok v ∧ ∀ w, (c.name, w) ∈ vs ↔ w = v := by
  have hd := C54_distinct h
  obtain ⟨new, h1, h2⟩ := columns_spec up ftype objs fuel ks [] cols h
  simp only [List.nil_append] at h1
  subst h1
  have hfind : ∀ c ∈ cols, (cols.reverse.find? (fun c' => c'.name = c.name)).map (·.key) = some c.key := by
    intro c hc
    cases hf : cols.reverse.find? (fun c' => c'.name = c.name) with
    | none =>
      rw [List.find?_eq_none] at hf
      exact absurd (decide_eq_true rfl) (hf c (List.mem_reverse.mpr hc))
    | some c' =>
      have hm : c' ∈ cols := List.mem_reverse.mp (List.mem_of_find?_eq_some hf)
      have hn : c'.name = c.name := by simpa using List.find?_some hf
      have : c' = c := by
        by_contra hne
        have hnd : (cols.map (·.name)).Nodup := by rw [List.Nodup, List.pairwise_map]; exact hd
        exact hne (List.inj_on_of_nodup_map hnd hm hc hn)
      rw [this]; rfl
  have hval : ∀ c ∈ cols, ∃ v, p.get c.key = .ok v := fun c hc =>
    get_of_mem (((hk.2 c.key).mp (h2.keys.subset (List.mem_map_of_mem hc))).1 p hp)
  -- the rows of any part of the columns
  have hrow : ∀ (l : List (Column T)), (∀ c ∈ l, c ∈ cols) →
      ∃ vs, l.mapM (fun c => (p.get (((cols.reverse.find? (fun c' => c'.name = c.name)).map (·.key)).getD c.name)).map
        (fun v => (c.name, v))) = .ok vs ∧ vs.map (·.1) = l.map (·.name) ∧
        (∀ x ∈ vs, ∃ c ∈ l, c.name = x.1 ∧ p.get c.key = .ok x.2) ∧
        ∀ c ∈ l, ∃ v, p.get c.key = .ok v ∧ (c.name, v) ∈ vs := by
    intro l hl
    induction l with
    | nil => exact ⟨[], rfl, rfl, by simp, by simp⟩
    | cons c l ih =>
      obtain ⟨vs, e1, e2, e3, e4⟩ := ih (fun c' hc' => hl c' (List.mem_cons_of_mem _ hc'))
      obtain ⟨v, hv⟩ := hval c (hl c List.mem_cons_self)
      refine ⟨(c.name, v) :: vs, ?_, by simp [e2], ?_, ?_⟩
      · rw [List.mapM_cons, e1, hfind c (hl c List.mem_cons_self)]
        simp only [Option.getD_some, hv]
        rfl
      · intro x hx
        rcases List.mem_cons.mp hx with rfl | hx
        · exact ⟨c, List.mem_cons_self, rfl, hv⟩
        · obtain ⟨c', hc', h'⟩ := e3 x hx
          exact ⟨c', List.mem_cons_of_mem _ hc', h'⟩
      · intro c' hc'
        rcases List.mem_cons.mp hc' with rfl | hc'
        · exact ⟨v, hv, List.mem_cons_self⟩
        · obtain ⟨v', h3, h4⟩ := e4 c' hc'
          exact ⟨v', h3, List.mem_cons_of_mem _ h4⟩
  obtain ⟨vs, e1, e2, e3, e4⟩ := hrow cols (fun _ h => h)
  refine ⟨vs, by unfold row; rw [e1], e2, fun c hc => ?_⟩
  obtain ⟨v, hv, hm⟩ := e4 c hc
  refine ⟨v, hv, fun w => ⟨fun hw => ?_, fun hw => hw ▸ hm⟩⟩
  obtain ⟨c', hc', hn, hv'⟩ := e3 _ hw
  have : c' = c := by
    have hnd : (cols.map (·.name)).Nodup := by rw [List.Nodup, List.pairwise_map]; exact hd
    exact List.inj_on_of_nodup_map hnd hc' hc hn
  subst this
  rw [hv] at hv'
  cases hv'
  rfl

end

/-- **C82 is violated by attributes first set in the 101st feature**: the attribute, storable and shared by all, gets no
column. -/
theorem C82_violated_late_value : ∃ (objs : List (Props (Option Unit))) (ks : List Name), IsKeyOrder objs ks ∧
    "a".toList ∈ ks ∧ (∃ p ∈ objs, p.get "a".toList = .ok (some ())) ∧
    columns (fun c => [c.toUpper]) (fun v => match v with | some u => (.ok u : Except Err Unit) | none => .error .typeError)
      objs 0 [] ks = some (.ok []) := by
  refine ⟨List.replicate 100 [("a".toList, none)] ++ [[("a".toList, some ())]], ["a".toList], ⟨by simp, fun k => ?_⟩,
    List.mem_cons_self, ⟨_, List.mem_append_right _ List.mem_cons_self, rfl⟩, rfl⟩
  constructor
  · intro hk
    rw [List.mem_singleton] at hk
    subst hk
    refine ⟨fun p hp => ?_, by decide⟩
    rcases List.mem_append.mp hp with h | h
    · rw [(List.mem_replicate.mp h).2]; simp
    · rw [List.mem_singleton] at h; rw [h]; simp
  · rintro ⟨h, _⟩
    have := h _ (List.mem_append_right _ List.mem_cons_self)
    simpa using this

/-- The hypotheses of C82 are met by two features with clashing attributes. -/
example : ∃ (objs : List (Props Nat)) (ks : List Name) (cols : List (Column Unit)), IsKeyOrder objs ks ∧ ks.length = 2 ∧
    columns (fun c => [c.toUpper]) (fun _ => (.ok () : Except Err Unit)) objs 5 [] ks = some (.ok cols) ∧
    cols.map (·.name) = ["A".toList, "2".toList] := by
  refine ⟨[[("a".toList, 1), ("A".toList, 2)], [("A".toList, 3), ("a".toList, 4), ("b".toList, 0)]],
    ["a".toList, "A".toList], _, ⟨by decide, fun k => ?_⟩, rfl, rfl, by decide +kernel⟩
  constructor
  · intro hk
    simp only [List.mem_cons, List.not_mem_nil, or_false] at hk
    rcases hk with rfl | rfl
    · exact ⟨by decide, by decide⟩
    · exact ⟨by decide, by decide⟩
  · rintro ⟨h, _⟩
    have := h _ List.mem_cons_self
    simpa using this

end Karta.Shape
