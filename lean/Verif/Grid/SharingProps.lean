import Verif.Grid.Sharing
import Mathlib.Data.List.Nodup

/-!
# C165: grids are independent values unless they are made of the same bands
-/

namespace Karta.BandShare
open Karta

variable {V : Type} [DecidableEq V]

/-! ### Specification: grids as values -/

/-- A grid as a value: the contents of its bands and its nodata value. -/
structure VGrid (V : Type) where
  bands : List (Band V)
  nodata : V

/-- Bands the user made and grids, all as values. -/
structure VSt (V : Type) where
  own : List (List V)
  grids : List (VGrid V)

/-- Assignment to the bands of a grid on its own; bands on file refuse. -/
def vwrite (f : Nat → List V → List V) : Nat → List (Band V) → List (Band V) × Option Err
  | _, [] => ([], none)
  | k, b :: bs =>
    if b.file then (b :: bs, some .notImplemented)
    else ({ b with pix := f k b.pix } :: (vwrite f (k + 1) bs).1, (vwrite f (k + 1) bs).2)

/-- The content of the band a handle names. -/
def vresolve (s : VSt V) : Handle → Option (Band V)
  | .own n => (s.own[n]?).map fun p => ⟨false, p⟩
  | .of g k => (s.grids[g]?).bind fun o => o.bands[k]?

/-- What a call does to grids that are values: it adds one grid, or changes the one it is called on, and no other. -/
def vstep (s : VSt V) : Op V → VSt V × Option Err
  | .band pix => ({ s with own := s.own ++ [pix] }, none)
  | .make imgs nodata => ({ s with grids := s.grids ++ [⟨imgs.map fun p => ⟨false, p⟩, nodata⟩] }, none)
  | .openFile imgs nodata => ({ s with grids := s.grids ++ [⟨imgs.map fun p => ⟨true, p⟩, nodata⟩] }, none)
  | .wrap hs nodata =>
    match hs.mapM (vresolve s) with
    | none => (s, some .indexError)
    | some [] => (s, some .indexError)
    | some (b :: bs) => ({ s with grids := s.grids ++ [⟨b :: bs, nodata⟩] }, none)
  | .copy g =>
    match s.grids[g]? with
    | none => (s, some .nameError)
    | some o => if o.bands.any Band.file then (s, some .typeError) else ({ s with grids := s.grids ++ [o] }, none)
  | .write g f =>
    match s.grids[g]? with
    | none => (s, some .nameError)
    | some o => ({ s with grids := s.grids.set g { o with bands := (vwrite f 0 o.bands).1 } }, (vwrite f 0 o.bands).2)
  | .setNodata g v =>
    match s.grids[g]? with
    | none => (s, some .nameError)
    | some o =>
      match vwrite (fun _ => relabel o.nodata v) 0 o.bands with
      | (bs, some e) => ({ s with grids := s.grids.set g { o with bands := bs } }, some e)
      | (bs, none) => ({ s with grids := s.grids.set g ⟨bs, v⟩ }, none)
  | .derive g F =>
    match s.grids[g]? with
    | none => (s, some .nameError)
    | some o => ({ s with grids := s.grids ++ [⟨(F o.nodata (o.bands.map Band.pix)).map fun p => ⟨false, p⟩, o.nodata⟩] }, none)
  | .resize g F =>
    match s.grids[g]? with
    | none => (s, some .nameError)
    | some o =>
      if o.bands.any Band.file then (s, some .typeError)
      else ({ s with grids := s.grids ++ [⟨o.bands.map fun b => ⟨false, F o.nodata b.pix⟩, o.nodata⟩] }, none)

/-- A history of values. -/
def vrun (s : VSt V) : List (Op V) → VSt V × List (Option Err)
  | [] => (s, [])
  | op :: ops => ((vrun (vstep s op).1 ops).1, (vstep s op).2 :: (vrun (vstep s op).1 ops).2)

/-- What reading a grid shows. -/
def look (h : Nat → Band V) (o : GObj V) : VGrid V := ⟨o.ids.map h, o.nodata⟩

/-- What reading all grids shows. -/
def view (s : St V) : List (VGrid V) := s.grids.map (look s.heap)

/-- The bands named by a call of the constructor. -/
def wrapped : Op V → List Handle
  | .wrap hs _ => hs
  | _ => []

/-- The history hands each band the user made to at most one grid, once, and takes no band from a grid. -/
def NoReuse (ops : List (Op V)) : Prop :=
  (ops.flatMap wrapped).Nodup ∧ ∀ h ∈ ops.flatMap wrapped, ∃ n, h = .own n

/-- Nothing yet. -/
def start (b : Band V) : St V := ⟨fun _ => b, 0, [], []⟩

/-- Nothing yet. -/
def vstart : VSt V := ⟨[], []⟩

/-- Two grids have a band in common. -/
def Common (o o' : GObj V) : Prop := ∃ i, i ∈ o.ids ∧ i ∈ o'.ids

/-! ### Helpers -/

theorem writeBands_away (f : Nat → List V → List V) (ids : List Nat) : ∀ (k : Nat) (h : Nat → Band V) (j : Nat), j ∉ ids →
    (writeBands f k ids h).1 j = h j := by
  induction ids with
  | nil => intro k h j _; rfl
  | cons i is ih =>
    intro k h j hj
    rw [List.mem_cons, not_or] at hj
    rw [writeBands]
    by_cases hf : (h i).file = true
    · rw [if_pos hf]
    · rw [if_neg hf, ih _ _ _ hj.2, if_neg hj.1]

theorem writeBands_view (f : Nat → List V → List V) (ids : List Nat) : ∀ (k : Nat) (h : Nat → Band V), ids.Nodup →
    ids.map (writeBands f k ids h).1 = (vwrite f k (ids.map h)).1 ∧ (writeBands f k ids h).2 = (vwrite f k (ids.map h)).2 := by
  induction ids with
  | nil => intro k h _; exact ⟨rfl, rfl⟩
  | cons i is ih =>
    intro k h hnd
    obtain ⟨hi, his⟩ := List.nodup_cons.1 hnd
    rw [writeBands, List.map_cons (f := h), vwrite]
    by_cases hf : (h i).file = true
    · rw [if_pos hf, if_pos hf]
      exact ⟨rfl, rfl⟩
    · rw [if_neg hf, if_neg hf]
      have hmap : is.map (fun j => if j = i then { h i with pix := f k (h i).pix } else h j) = is.map h := by
        refine List.map_congr_left fun j hj => ?_
        rw [if_neg (fun e : j = i => hi (e ▸ hj))]
      obtain ⟨a, b⟩ := ih (k + 1) (fun j => if j = i then { h i with pix := f k (h i).pix } else h j) his
      rw [hmap] at a b
      refine ⟨?_, b⟩
      rw [List.map_cons, a, writeBands_away f is _ _ _ hi, if_pos rfl]

/-- The heap after new bands. -/
theorem alloc_old (bs : List (Band V)) (s : St V) (j : Nat) (hj : j < s.next) : (alloc bs s).heap j = s.heap j := by
  simp only [alloc]
  rw [if_neg (by omega)]

theorem alloc_new (bs : List (Band V)) (s : St V) : ((List.range bs.length).map (s.next + ·)).map (alloc bs s).heap = bs := by
  rw [List.map_map]
  refine List.ext_getElem (by simp) ?_
  intro k h1 h2
  simp only [List.getElem_map, List.getElem_range, Function.comp, alloc]
  rw [if_pos (by omega), Nat.add_sub_cancel_left, List.getElem?_eq_getElem h2]
  rfl

/-- The state and the values belong together; `used` are the user's bands that are in grids. -/
structure Inv (used : List Handle) (s : St V) (v : VSt V) : Prop where
  grids : view s = v.grids
  nodup : (s.grids.flatMap GObj.ids).Nodup
  below : ∀ i ∈ s.grids.flatMap GObj.ids, i < s.next
  ownNodup : s.own.Nodup
  ownBelow : ∀ i ∈ s.own, i < s.next
  ownLen : s.own.length = v.own.length
  ownFree : ∀ (n i : Nat), s.own[n]? = some i → .own n ∉ used → i ∉ s.grids.flatMap GObj.ids
  ownPix : ∀ (n i : Nat), s.own[n]? = some i → .own n ∉ used → (v.own[n]?).map (fun p => (⟨false, p⟩ : Band V)) = some (s.heap i)

omit [DecidableEq V] in
theorem look_congr {h h' : Nat → Band V} {o : GObj V} (e : ∀ i ∈ o.ids, h' i = h i) : look h' o = look h o := by
  unfold look
  rw [List.map_congr_left e]

theorem grids_get {used : List Handle} {s : St V} {v : VSt V} (h : Inv used s v) (g : Nat) :
    v.grids[g]? = (s.grids[g]?).map (look s.heap) := by
  rw [← h.grids, view, List.getElem?_map]

theorem Inv.apart {used : List Handle} {s : St V} {v : VSt V} (h : Inv used s v) {a b : Nat} {o o' : GObj V} (ha : s.grids[a]? = some o)
    (hb : s.grids[b]? = some o') (hne : a ≠ b) : ∀ i ∈ o.ids, i ∉ o'.ids := by
  have hp := (List.nodup_flatMap.1 h.nodup).2
  rw [List.pairwise_iff_getElem] at hp
  obtain ⟨la, ea⟩ := List.getElem?_eq_some_iff.1 ha
  obtain ⟨lb, eb⟩ := List.getElem?_eq_some_iff.1 hb
  intro i hi hi'
  rcases Nat.lt_or_gt_of_ne hne with hl | hl
  · have := hp a b la lb hl
    rw [ea, eb] at this
    exact this hi hi'
  · have := hp b a lb la hl
    rw [ea, eb] at this
    exact this hi' hi

theorem mem_ids {s : St V} {g : Nat} {o : GObj V} (hg : s.grids[g]? = some o) {i : Nat} (hi : i ∈ o.ids) : i ∈ s.grids.flatMap GObj.ids :=
  List.mem_flatMap.2 ⟨o, List.mem_of_getElem? hg, hi⟩

theorem Inv.ids_nodup {used : List Handle} {s : St V} {v : VSt V} (h : Inv used s v) {g : Nat} {o : GObj V} (hg : s.grids[g]? = some o) :
    o.ids.Nodup := (List.nodup_flatMap.1 h.nodup).1 o (List.mem_of_getElem? hg)

/-- Adding a grid of new bands keeps the correspondence. -/
theorem Inv.add {used : List Handle} {s : St V} {v : VSt V} (h : Inv used s v) (bs : List (Band V)) (nd : V) :
    Inv used (addGrid bs nd s) { v with grids := v.grids ++ [⟨bs, nd⟩] } := by
  have hnew : ∀ i ∈ (List.range bs.length).map (s.next + ·), s.next ≤ i ∧ i < s.next + bs.length := by
    intro i hi
    obtain ⟨k, hk, rfl⟩ := List.mem_map.1 hi
    have := List.mem_range.1 hk
    exact ⟨by omega, by omega⟩
  have hflat : (addGrid bs nd s).grids.flatMap GObj.ids = s.grids.flatMap GObj.ids ++ (List.range bs.length).map (s.next + ·) := by
    simp [addGrid, List.flatMap_append]
  constructor
  · have h1 : view (addGrid bs nd s) = s.grids.map (look (alloc bs s).heap) ++ [look (alloc bs s).heap ⟨(List.range bs.length).map (s.next + ·), nd⟩] := by
      simp [view, addGrid]
    rw [h1]
    have h2 : s.grids.map (look (alloc bs s).heap) = view s := by
      refine List.map_congr_left fun o ho => look_congr fun i hi => alloc_old bs s i (h.below i (List.mem_flatMap.2 ⟨o, ho, hi⟩))
    rw [h2, h.grids, look, alloc_new]
  · rw [hflat, List.nodup_append]
    refine ⟨h.nodup, List.Nodup.map (fun a b e => Nat.add_left_cancel e) List.nodup_range, ?_⟩
    intro a ha b hb e
    have := h.below a ha
    have := hnew b hb
    omega
  · intro i hi
    rw [hflat, List.mem_append] at hi
    change i < s.next + bs.length
    rcases hi with hi | hi
    · have := h.below i hi; omega
    · exact (hnew i hi).2
  · exact h.ownNodup
  · intro i hi
    have := h.ownBelow i hi
    change i < s.next + bs.length
    omega
  · exact h.ownLen
  · intro n i hn hu hi
    rw [hflat, List.mem_append] at hi
    have hb := h.ownBelow i (List.mem_of_getElem? hn)
    rcases hi with hi | hi
    · exact h.ownFree n i hn hu hi
    · have := hnew i hi; omega
  · intro n i hn hu
    have hb := h.ownBelow i (List.mem_of_getElem? hn)
    rw [h.ownPix n i hn hu]
    congr 1
    exact (alloc_old bs s i hb).symm

/-- Changing the bands of one grid keeps the correspondence. -/
theorem Inv.change {used : List Handle} {s : St V} {v : VSt V} (h : Inv used s v) (g : Nat) (o : GObj V) (hg : s.grids[g]? = some o)
    (f : Nat → List V → List V) (nd : V) :
    Inv used { s with heap := (writeBands f 0 o.ids s.heap).1, grids := s.grids.set g { o with nodata := nd } }
      { v with grids := v.grids.set g ⟨(vwrite f 0 (o.ids.map s.heap)).1, nd⟩ } := by
  have hflat : (s.grids.set g { o with nodata := nd }).flatMap GObj.ids = s.grids.flatMap GObj.ids := by
    rw [List.flatMap_def, List.flatMap_def, List.map_set]
    congr 1
    refine List.ext_getElem? fun k => ?_
    rw [List.getElem?_set]
    by_cases hk : g = k
    · subst hk
      have hl : g < (s.grids.map GObj.ids).length := by rw [List.length_map]; exact (List.getElem?_eq_some_iff.1 hg).1
      rw [if_pos rfl, if_pos hl, List.getElem?_map, hg]
      rfl
    · rw [if_neg hk]
  constructor
  · refine List.ext_getElem? fun k => ?_
    simp only [view, List.getElem?_map, List.getElem?_set]
    by_cases hk : g = k
    · subst hk
      obtain ⟨hl, -⟩ := List.getElem?_eq_some_iff.1 hg
      have hl' : g < v.grids.length := by rw [← h.grids, view, List.length_map]; exact hl
      rw [if_pos rfl, if_pos hl, if_pos rfl, if_pos hl']
      simp only [Option.map_some, look, (writeBands_view f o.ids 0 s.heap (h.ids_nodup hg)).1]
    · rw [if_neg hk, if_neg hk, grids_get h]
      cases ho : s.grids[k]? with
      | none => rfl
      | some o' =>
        simp only [Option.map_some]
        congr 1
        exact look_congr fun i hi => writeBands_away f o.ids 0 s.heap i (fun hc => h.apart hg ho hk i hc hi)
  · rw [hflat]; exact h.nodup
  · rw [hflat]; exact h.below
  · exact h.ownNodup
  · exact h.ownBelow
  · exact h.ownLen
  · rw [hflat]; exact h.ownFree
  · intro n i hn hu
    rw [h.ownPix n i hn hu]
    congr 1
    exact (writeBands_away f o.ids 0 s.heap i (fun hc => h.ownFree n i hn hu (mem_ids hg hc))).symm

theorem Inv.mono {used used' : List Handle} {s : St V} {v : VSt V} (h : Inv used s v) (hs : used ⊆ used') : Inv used' s v :=
  ⟨h.grids, h.nodup, h.below, h.ownNodup, h.ownBelow, h.ownLen, fun n i a b => h.ownFree n i a (fun c => b (hs c)),
    fun n i a b => h.ownPix n i a (fun c => b (hs c))⟩

theorem resolve_all {used : List Handle} {s : St V} {v : VSt V} (h : Inv used s v) : ∀ (hs : List Handle), (∀ x ∈ hs, ∃ n, x = .own n) →
    (∀ x ∈ hs, x ∉ used) → hs.Nodup →
    hs.mapM (vresolve v) = (hs.mapM (resolve s)).map (List.map s.heap) ∧
    ∀ is, hs.mapM (resolve s) = some is → is.Nodup ∧ ∀ i ∈ is, ∃ n, .own n ∈ hs ∧ s.own[n]? = some i := by
  intro hs
  induction hs with
  | nil => intro _ _ _; exact ⟨rfl, by rintro is ⟨⟩; simp⟩
  | cons x hs ih =>
    intro h1 h2 h3
    obtain ⟨n, rfl⟩ := h1 x (List.mem_cons_self ..)
    obtain ⟨hx, hnd⟩ := List.nodup_cons.1 h3
    obtain ⟨e, hi⟩ := ih (fun y hy => h1 y (List.mem_cons_of_mem _ hy)) (fun y hy => h2 y (List.mem_cons_of_mem _ hy)) hnd
    have hu := h2 (.own n) (List.mem_cons_self ..)
    rw [List.mapM_cons, List.mapM_cons, e]
    have hv : vresolve v (.own n) = (s.own[n]?).map s.heap := by
      cases ho : s.own[n]? with
      | none =>
        have : v.own[n]? = none := by
          rw [List.getElem?_eq_none_iff] at ho ⊢
          rw [← h.ownLen]; exact ho
        rw [vresolve, this]; rfl
      | some i => exact h.ownPix n i ho hu
    rw [hv, resolve]
    cases ho : s.own[n]? with
    | none => exact ⟨rfl, by rintro is ⟨⟩⟩
    | some i =>
      cases hm : hs.mapM (resolve s) with
      | none => exact ⟨rfl, by rintro is ⟨⟩⟩
      | some is =>
        refine ⟨rfl, ?_⟩
        rintro js hj
        cases hj
        obtain ⟨d, m⟩ := hi is hm
        refine ⟨List.nodup_cons.2 ⟨?_, d⟩, ?_⟩
        · intro hc
          obtain ⟨n', hn', e'⟩ := m i hc
          have : n = n' := by
            have l1 := (List.getElem?_eq_some_iff.1 ho).1
            have l2 := (List.getElem?_eq_some_iff.1 e').1
            exact (List.Nodup.getElem_inj_iff h.ownNodup).1
              (((List.getElem?_eq_some_iff.1 ho).2).trans ((List.getElem?_eq_some_iff.1 e').2).symm)
          exact hx (this ▸ hn')
        · intro j hj
          rcases List.mem_cons.1 hj with rfl | hj
          · exact ⟨n, List.mem_cons_self .., ho⟩
          · obtain ⟨n', a, b⟩ := m j hj
            exact ⟨n', List.mem_cons_of_mem _ a, b⟩

/-- One call keeps the correspondence and raises the same error. -/
theorem step_inv {used : List Handle} {s : St V} {v : VSt V} (h : Inv used s v) (op : Op V) (h1 : ∀ x ∈ wrapped op, ∃ n, x = .own n)
    (h2 : ∀ x ∈ wrapped op, x ∉ used) (h3 : (wrapped op).Nodup) :
    Inv (wrapped op ++ used) (step s op).1 (vstep v op).1 ∧ (step s op).2 = (vstep v op).2 := by
  cases op with
  | band pix =>
    refine ⟨?_, rfl⟩
    have hnot : s.next ∉ s.own := fun hc => by have := h.ownBelow _ hc; omega
    constructor
    · refine Eq.trans ?_ h.grids
      exact List.map_congr_left fun o ho => look_congr fun i hi => alloc_old _ s i (h.below i (List.mem_flatMap.2 ⟨o, ho, hi⟩))
    · exact h.nodup
    · intro i hi
      have := h.below i hi
      change i < s.next + 1
      omega
    · change (s.own ++ [s.next]).Nodup
      rw [List.nodup_append]
      refine ⟨h.ownNodup, List.nodup_singleton _, ?_⟩
      rintro a ha b hb rfl
      rw [List.mem_singleton] at hb
      exact hnot (hb ▸ ha)
    · intro i hi
      change i < s.next + 1
      rcases List.mem_append.1 hi with hi | hi
      · have := h.ownBelow i hi; omega
      · rw [List.mem_singleton] at hi; omega
    · simp [step, vstep, h.ownLen]
    · intro n i hn hu
      change (s.own ++ [s.next])[n]? = some i at hn
      by_cases hl : n < s.own.length
      · rw [List.getElem?_append_left hl] at hn
        exact h.ownFree n i hn hu
      · rw [List.getElem?_append_right (by omega)] at hn
        have := List.mem_singleton.1 (List.mem_of_getElem? hn)
        subst this
        intro hc
        have := h.below _ hc
        omega
    · intro n i hn hu
      change (s.own ++ [s.next])[n]? = some i at hn
      change ((v.own ++ [pix])[n]?).map _ = some ((alloc [⟨false, pix⟩] s).heap i)
      by_cases hl : n < s.own.length
      · rw [List.getElem?_append_left hl] at hn
        rw [List.getElem?_append_left (by rw [← h.ownLen]; exact hl), h.ownPix n i hn hu,
          alloc_old _ s i (h.ownBelow i (List.mem_of_getElem? hn))]
      · rw [List.getElem?_append_right (by omega)] at hn
        rw [List.getElem?_append_right (by rw [← h.ownLen]; omega), ← h.ownLen]
        have hi := List.mem_singleton.1 (List.mem_of_getElem? hn)
        have hz : n - s.own.length = 0 := by
          have := (List.getElem?_eq_some_iff.1 hn).1
          simpa using this
        rw [hz, hi]
        simp [alloc]
  | make imgs nodata => exact ⟨h.add _ _, rfl⟩
  | openFile imgs nodata => exact ⟨h.add _ _, rfl⟩
  | wrap hs nodata =>
    obtain ⟨e, hr⟩ := resolve_all h hs h1 h2 h3
    rw [step, vstep, e]
    cases hm : hs.mapM (resolve s) with
    | none => exact ⟨h.mono (List.subset_append_right ..), rfl⟩
    | some is =>
      cases is with
      | nil => exact ⟨h.mono (List.subset_append_right ..), rfl⟩
      | cons i is =>
        refine ⟨?_, rfl⟩
        obtain ⟨nd, hi⟩ := hr _ hm
        have hflat : (s.grids ++ [(⟨i :: is, nodata⟩ : GObj V)]).flatMap GObj.ids = s.grids.flatMap GObj.ids ++ (i :: is) := by
          simp [List.flatMap_append]
        constructor
        · simp only [Option.map_some, List.map_cons, ← h.grids, view, List.map_append, List.map_nil, look]
        · rw [hflat, List.nodup_append]
          refine ⟨h.nodup, nd, ?_⟩
          rintro a ha b hb rfl
          obtain ⟨n, a1, a2⟩ := hi a hb
          exact h.ownFree n a a2 (h2 _ a1) ha
        · intro j hj
          rw [hflat, List.mem_append] at hj
          rcases hj with hj | hj
          · exact h.below j hj
          · obtain ⟨n, a1, a2⟩ := hi j hj
            exact h.ownBelow j (List.mem_of_getElem? a2)
        · exact h.ownNodup
        · exact h.ownBelow
        · exact h.ownLen
        · intro n j hn hu
          rw [hflat, List.mem_append]
          rintro (hj | hj)
          · exact h.ownFree n j hn (fun c => hu (List.mem_append_right _ c)) hj
          · obtain ⟨n', a1, a2⟩ := hi j hj
            have : n = n' := (List.Nodup.getElem_inj_iff h.ownNodup).1
              (((List.getElem?_eq_some_iff.1 hn).2).trans ((List.getElem?_eq_some_iff.1 a2).2).symm)
            exact hu (List.mem_append_left _ (this ▸ a1))
        · intro n j hn hu
          exact h.ownPix n j hn (fun c => hu (List.mem_append_right _ c))
  | copy g =>
    rw [step, vstep, grids_get h]
    cases hg : s.grids[g]? with
    | none => exact ⟨h, rfl⟩
    | some o =>
      simp only [Option.map_some, look, List.any_map, Function.comp]
      have hnd := h.ids_nodup hg
      by_cases hf : (o.ids.any fun i => (s.heap i).file) = true
      · rw [if_pos hf, if_pos (by simpa [Function.comp] using hf)]
        exact ⟨h, rfl⟩
      · rw [if_neg hf, if_neg (by simpa [Function.comp] using hf)]
        refine ⟨?_, rfl⟩
        have hd : o.ids.dedup = o.ids := List.Nodup.dedup hnd
        have hids : (o.ids.map fun i => s.next + o.ids.dedup.idxOf i) = (List.range (o.ids.map s.heap).length).map (s.next + ·) := by
          rw [hd]
          refine List.ext_getElem (by simp) ?_
          intro k a b
          simp only [List.getElem_map, List.getElem_range]
          rw [List.Nodup.idxOf_getElem hnd]
        have hadd := h.add (o.ids.map s.heap) o.nodata
        unfold addGrid at hadd
        rw [← hids] at hadd
        rw [hd] at *
        exact hadd
  | write g f =>
    rw [step, vstep, grids_get h]
    cases hg : s.grids[g]? with
    | none => exact ⟨h, rfl⟩
    | some o =>
      have hc := h.change g o hg f o.nodata
      have hset : s.grids.set g o = s.grids := by
        refine List.ext_getElem? fun k => ?_
        rw [List.getElem?_set]
        by_cases hk : g = k
        · subst hk; rw [if_pos rfl, if_pos (List.getElem?_eq_some_iff.1 hg).1, hg]
        · rw [if_neg hk]
      refine ⟨?_, (writeBands_view f o.ids 0 s.heap (h.ids_nodup hg)).2⟩
      have ho : ({ o with nodata := o.nodata } : GObj V) = o := rfl
      rw [ho, hset] at hc
      exact hc
  | setNodata g nv =>
    rw [step, vstep, grids_get h]
    cases hg : s.grids[g]? with
    | none => exact ⟨h, rfl⟩
    | some o =>
      simp only [Option.map_some, look]
      obtain ⟨w1, w2⟩ := writeBands_view (fun _ => relabel o.nodata nv) o.ids 0 s.heap (h.ids_nodup hg)
      cases he : writeBands (fun _ => relabel o.nodata nv) 0 o.ids s.heap with
      | mk h' e =>
        cases hv : vwrite (fun _ => relabel o.nodata nv) 0 (o.ids.map s.heap) with
        | mk bs e' =>
          rw [he, hv] at w2
          dsimp only at w2
          subst w2
          have hset : s.grids.set g o = s.grids := by
            refine List.ext_getElem? fun k => ?_
            rw [List.getElem?_set]
            by_cases hk : g = k
            · subst hk; rw [if_pos rfl, if_pos (List.getElem?_eq_some_iff.1 hg).1, hg]
            · rw [if_neg hk]
          cases e with
          | none =>
            have hc := h.change g o hg (fun _ => relabel o.nodata nv) nv
            rw [he, hv] at hc
            exact ⟨hc, rfl⟩
          | some e =>
            have hc := h.change g o hg (fun _ => relabel o.nodata nv) o.nodata
            have ho : ({ o with nodata := o.nodata } : GObj V) = o := rfl
            rw [he, hv, ho, hset] at hc
            exact ⟨hc, rfl⟩
  | derive g F =>
    rw [step, vstep, grids_get h]
    cases hg : s.grids[g]? with
    | none => exact ⟨h, rfl⟩
    | some o =>
      have := h.add ((F o.nodata (o.ids.map fun i => (s.heap i).pix)).map fun p => ⟨false, p⟩) o.nodata
      simp only [Option.map_some, look, List.map_map]
      exact ⟨this, trivial⟩
  | resize g F =>
    rw [step, vstep, grids_get h]
    cases hg : s.grids[g]? with
    | none => exact ⟨h, rfl⟩
    | some o =>
      simp only [Option.map_some, look, List.any_map, List.map_map]
      by_cases hf : (o.ids.any fun i => (s.heap i).file) = true
      · rw [if_pos hf, if_pos (by simpa [Function.comp] using hf)]
        exact ⟨h, rfl⟩
      · rw [if_neg hf, if_neg (by simpa [Function.comp] using hf)]
        have := h.add (o.ids.map fun i => ⟨false, F o.nodata (s.heap i).pix⟩) o.nodata
        exact ⟨this, rfl⟩

theorem run_inv (ops : List (Op V)) : ∀ (used : List Handle) (s : St V) (v : VSt V), Inv used s v →
    (ops.flatMap wrapped ++ used).Nodup → (∀ h ∈ ops.flatMap wrapped, ∃ n, h = .own n) →
    view (run s ops).1 = (vrun v ops).1.grids ∧ (run s ops).2 = (vrun v ops).2 := by
  induction ops with
  | nil => intro used s v h _ _; exact ⟨h.grids, rfl⟩
  | cons op ops ih =>
    intro used s v h hn ho
    rw [List.flatMap_cons] at hn ho
    rw [List.append_assoc, List.nodup_append] at hn
    obtain ⟨n1, n2, n3⟩ := hn
    have n3' : ∀ x ∈ wrapped op, x ∉ ops.flatMap wrapped ++ used := fun x hx hc => n3 x hx x hc rfl
    obtain ⟨hi, he⟩ := step_inv h op (fun x hx => ho x (List.mem_append_left _ hx))
      (fun x hx hc => n3' x hx (List.mem_append_right _ hc)) n1
    obtain ⟨a, b⟩ := ih (wrapped op ++ used) _ _ hi (by
      rw [List.nodup_append] at n2 ⊢
      refine ⟨n2.1, ?_, ?_⟩
      · rw [List.nodup_append]
        exact ⟨n1, n2.2.1, fun x hx y hy e => n3' x hx (List.mem_append_right _ (e ▸ hy))⟩
      · intro x hx y hy e
        rcases List.mem_append.1 hy with hy | hy
        · exact n3' y hy (List.mem_append_left _ (e ▸ hx))
        · exact n2.2.2 x hx y hy e) (fun x hx => ho x (List.mem_append_right _ hx))
    exact ⟨a, by rw [run, vrun, b, he]⟩

/-! ### Theorems -/

/-- C165: over every history in which no band object is given to two grids, reading any grid shows what it would if grids were values, and
the same calls raise: a call changes the grid it is called on and nothing else, and what copies, clips, sums and so on return is never
changed through the original, nor the original through them. -/
theorem C165_values_partial (b : Band V) (ops : List (Op V)) (h : NoReuse ops) :
    view (run (start b) ops).1 = (vrun vstart ops).1.grids ∧ (run (start b) ops).2 = (vrun vstart ops).2 := by
  refine run_inv ops [] (start b) vstart ?_ (by rw [List.append_nil]; exact h.1) h.2
  constructor <;> simp [start, vstart, view]

/-- C165: in every state whatsoever, a call on one grid does not change what another grid shows, unless they have a band in common. -/
theorem C165_frame (s : St V) (op : Op V) (a b : Nat) (o o' : GObj V) (ha : s.grids[a]? = some o) (hb : s.grids[b]? = some o')
    (hop : (∃ f, op = .write a f) ∨ ∃ v, op = .setNodata a v) (hne : a ≠ b) (hc : ¬ Common o o') :
    ((step s op).1.grids[b]?).map (look (step s op).1.heap) = some (look s.heap o') := by
  have away : ∀ f, look (writeBands f 0 o.ids s.heap).1 o' = look s.heap o' := fun f =>
    look_congr fun i hi => writeBands_away f o.ids 0 s.heap i (fun h => hc ⟨i, h, hi⟩)
  rcases hop with ⟨f, rfl⟩ | ⟨v, rfl⟩
  · rw [step, ha]
    dsimp only
    rw [hb, Option.map_some, away]
  · rw [step, ha]
    dsimp only
    have h1 := away (fun _ => relabel o.nodata v)
    cases he : writeBands (fun _ => relabel o.nodata v) 0 o.ids s.heap with
    | mk h' e =>
      rw [he] at h1
      cases e with
      | none =>
        dsimp only
        rw [List.getElem?_set_ne hne, hb, Option.map_some, h1]
      | some e =>
        dsimp only
        rw [hb, Option.map_some, h1]

/-- C165 is violated by grids made of the same band: after `set_nodata_value` on one of them, the other, whose own nodata value is
unchanged, shows the new value as data in every cell that had none. -/
theorem C165_violated_shared (b : Band V) (pix : List V) (nd v : V) (hv : v ≠ nd) (k : Nat) (hk : pix[k]? = some nd) :
    let before := view (run (start b) [.band pix, .wrap [.own 0] nd, .wrap [.own 0] nd]).1
    let after := view (run (start b) [.band pix, .wrap [.own 0] nd, .wrap [.own 0] nd, .setNodata 0 v]).1
    ∃ g g' p p', before[1]? = some g ∧ after[1]? = some g' ∧ g.nodata = nd ∧ g'.nodata = nd ∧ g.bands = [⟨false, p⟩] ∧
      g'.bands = [⟨false, p'⟩] ∧ p[k]? = some nd ∧ p'[k]? = some v ∧ v ≠ g'.nodata := by
  refine ⟨⟨[⟨false, pix⟩], nd⟩, ⟨[⟨false, relabel nd v pix⟩], nd⟩, pix, relabel nd v pix, rfl, rfl, rfl, rfl, rfl, rfl, hk, ?_, hv⟩
  simp [relabel, hk]

/-- C165 is violated by grids that read from files: they can be neither copied nor resized nor changed. -/
theorem C165_violated_file (b : Band V) (img : List V) (imgs : List (List V)) (nd v : V) (f : Nat → List V → List V) (F : V → List V → List V) :
    (run (start b) [.openFile (img :: imgs) nd, .copy 0, .resize 0 F, .write 0 f, .setNodata 0 v]).2 =
      [none, some .typeError, some .typeError, some .notImplemented, some .notImplemented] := by
  have hs : step (start b) (.openFile (img :: imgs) nd) = (addGrid ((img :: imgs).map fun p => ⟨true, p⟩) nd (start b), none) := rfl
  generalize hS : addGrid ((img :: imgs).map fun p => (⟨true, p⟩ : Band V)) nd (start b) = S at hs
  have hg : S.grids[0]? = some ⟨(List.range (imgs.length + 1)).map (0 + ·), nd⟩ := by
    subst hS; simp [addGrid, start]
  have hf : (S.heap 0).file = true := by
    subst hS; simp [addGrid, alloc, start]
  have hids : (List.range (imgs.length + 1)).map (0 + ·) = 0 :: (List.range imgs.length).map Nat.succ := by
    rw [List.range_succ_eq_map]; simp
  rw [hids] at hg
  have h1 : step S (.copy 0) = (S, some .typeError) := by
    rw [step, hg]; dsimp only; rw [if_pos (by simp [hf])]
  have h2 : step S (.resize 0 F) = (S, some .typeError) := by
    rw [step, hg]; dsimp only; rw [if_pos (by simp [hf])]
  have hw : ∀ f', writeBands f' 0 (0 :: (List.range imgs.length).map Nat.succ) S.heap = (S.heap, some .notImplemented) := by
    intro f'; rw [writeBands, if_pos hf]
  have h3 : step S (.write 0 f) = (S, some .notImplemented) := by
    rw [step, hg]; dsimp only; rw [hw]
  have h4 : step S (.setNodata 0 v) = (S, some .notImplemented) := by
    rw [step, hg]; dsimp only; rw [hw]
  simp only [run, hs, h1, h2, h3, h4]

/-! ### Examples -/

/-- A history without reuse in which copies and originals are changed. -/
def history : List (Op Int) :=
  [.band [1, 2, 0], .wrap [.own 0] 0, .copy 0, .write 1 (fun _ p => p.map (· + 10)), .setNodata 0 7, .derive 1 (fun _ is => is.map List.reverse),
    .write 2 (fun _ p => p.map (· * 2)), .openFile [[5, 6]] 0, .write 3 (fun _ p => p), .derive 3 (fun _ is => is)]

example : NoReuse history ∧ (run (start ⟨false, []⟩) history).2 =
      [none, none, none, none, none, none, none, none, some .notImplemented, none] ∧
    (view (run (start ⟨false, []⟩) history).1).map (fun g => (g.bands.map Band.pix, g.nodata)) =
      [([[1, 2, 7]], 7), ([[11, 12, 10]], 0), ([[20, 24, 22]], 0), ([[5, 6]], 0), ([[5, 6]], 0)] := by
  refine ⟨⟨by decide, ?_⟩, by decide, by decide⟩
  intro h hh
  simp [history, wrapped] at hh
  exact ⟨0, hh⟩

/-- Two grids with nothing in common, beside a third that shares a band with the first. -/
example : ∃ s : St Int, ∃ o o' : GObj Int, s.grids[0]? = some o ∧ s.grids[1]? = some o' ∧ ¬ Common o o' ∧
    ∃ o'', s.grids[2]? = some o'' ∧ Common o o'' := by
  refine ⟨(run (start ⟨false, []⟩) [.make [[1, 2]] 0, .copy 0, .wrap [.of 0 0] 9]).1, ⟨[0], 0⟩, ⟨[1], 0⟩, rfl, rfl, ?_, ⟨[0], 9⟩, rfl, ?_⟩
  · rintro ⟨i, h1, h2⟩; simp at h1 h2; omega
  · exact ⟨0, by simp, by simp⟩

example : (7 : Int) ≠ 0 ∧ ([1, 0] : List Int)[1]? = some 0 := by decide

/-! ### New grids after any history -/

/-- All bands of grids and of the user exist. -/
def Closed (s : St V) : Prop := (∀ o ∈ s.grids, ∀ i ∈ o.ids, i < s.next) ∧ ∀ i ∈ s.own, i < s.next

theorem closed_addGrid (bs : List (Band V)) (nd : V) (s : St V) (h : Closed s) : Closed (addGrid bs nd s) := by
  refine ⟨fun o ho i hi => ?_, fun i hi => ?_⟩
  · simp only [addGrid, List.mem_append, List.mem_singleton] at ho
    simp only [addGrid, alloc]
    rcases ho with ho | rfl
    · have := h.1 o ho i hi; omega
    · simp only [List.mem_map, List.mem_range] at hi
      obtain ⟨a, ha, rfl⟩ := hi
      omega
  · simp only [addGrid, alloc] at hi ⊢
    have := h.2 i hi; omega

theorem resolve_lt (s : St V) (h : Closed s) (x : Handle) (i : Nat) (hx : resolve s x = some i) : i < s.next := by
  cases x with
  | own n => exact h.2 i (List.mem_of_getElem? hx)
  | of g k =>
    rw [resolve, Option.bind_eq_some_iff] at hx
    obtain ⟨o, ho, hk⟩ := hx
    exact h.1 o (List.mem_of_getElem? ho) i (List.mem_of_getElem? hk)

theorem mapM_lt (s : St V) (h : Closed s) : ∀ (hs : List Handle) (is : List Nat), hs.mapM (resolve s) = some is → ∀ i ∈ is, i < s.next := by
  intro hs
  induction hs with
  | nil => intro is e; simp at e; subst e; simp
  | cons x hs ih =>
    intro is e i hi
    rw [List.mapM_cons] at e
    simp only [Option.bind_eq_bind, Option.bind_eq_some_iff, Option.pure_def, Option.some.injEq] at e
    obtain ⟨a, ha, l, hl, rfl⟩ := e
    rcases List.mem_cons.1 hi with rfl | hi
    · exact resolve_lt s h x _ ha
    · exact ih l hl i hi

theorem closed_step (s : St V) (h : Closed s) (op : Op V) : Closed (step s op).1 := by
  cases op with
  | band pix =>
    refine ⟨fun o ho i hi => ?_, fun i hi => ?_⟩
    · have := h.1 o ho i hi
      simp only [step, alloc]; omega
    · simp only [step, alloc, List.mem_append, List.mem_singleton, List.length_singleton] at hi ⊢
      rcases hi with hi | rfl
      · have := h.2 i hi; omega
      · omega
  | make imgs nd => exact closed_addGrid _ _ _ h
  | openFile imgs nd => exact closed_addGrid _ _ _ h
  | wrap hs nd =>
    rw [step]
    cases e : hs.mapM (resolve s) with
    | none => exact h
    | some l =>
      cases l with
      | nil => exact h
      | cons i is =>
        refine ⟨fun o ho j hj => ?_, h.2⟩
        simp only [List.mem_append, List.mem_singleton] at ho
        rcases ho with ho | rfl
        · exact h.1 o ho j hj
        · exact mapM_lt s h hs _ e j hj
  | copy g =>
    rw [step]
    cases e : s.grids[g]? with
    | none => exact h
    | some o =>
      dsimp only
      split
      · exact h
      · refine ⟨fun o' ho i hi => ?_, fun i hi => ?_⟩
        · simp only [List.mem_append, List.mem_singleton, alloc, List.length_map] at ho ⊢
          rcases ho with ho | rfl
          · have := h.1 o' ho i hi; omega
          · simp only [List.mem_map] at hi
            obtain ⟨a, ha, rfl⟩ := hi
            have := List.idxOf_lt_length_iff.2 (List.mem_dedup.2 ha)
            omega
        · have := h.2 i hi
          simp only [alloc]; omega
  | write g f =>
    rw [step]
    cases e : s.grids[g]? with
    | none => exact h
    | some o => exact h
  | setNodata g v =>
    rw [step]
    cases e : s.grids[g]? with
    | none => exact h
    | some o =>
      dsimp only
      cases he : writeBands (fun _ => relabel o.nodata v) 0 o.ids s.heap with
      | mk h' e' =>
        cases e' with
        | some _ => exact h
        | none =>
          refine ⟨fun o' ho i hi => ?_, h.2⟩
          rcases List.mem_or_eq_of_mem_set ho with ho | rfl
          · exact h.1 o' ho i hi
          · exact h.1 o (List.mem_of_getElem? e) i hi
  | derive g F =>
    rw [step]
    cases e : s.grids[g]? with
    | none => exact h
    | some o => exact closed_addGrid _ _ _ h
  | resize g F =>
    rw [step]
    cases e : s.grids[g]? with
    | none => exact h
    | some o =>
      dsimp only
      split
      · exact h
      · exact closed_addGrid _ _ _ h

theorem closed_run (ops : List (Op V)) : ∀ s : St V, Closed s → Closed (run s ops).1 := by
  induction ops with
  | nil => intro s h; exact h
  | cons op ops ih => intro s h; exact ih _ (closed_step s h op)

/-- The call makes a grid with bands of its own. -/
def Fresh : Op V → Prop
  | .make _ _ | .openFile _ _ | .copy _ | .derive _ _ | .resize _ _ => True
  | _ => False

theorem view_addGrid (bs : List (Band V)) (nd : V) (s : St V) (h : Closed s) :
    ∃ o, (addGrid bs nd s).grids = s.grids ++ [o] ∧ view (addGrid bs nd s) = view s ++ [⟨bs, nd⟩] ∧ (∀ i ∈ o.ids, s.next ≤ i) := by
  refine ⟨_, rfl, ?_, fun i hi => ?_⟩
  · simp only [view, addGrid, List.map_append, List.map_cons, List.map_nil]
    congr 1
    · exact List.map_congr_left fun o ho => look_congr fun i hi => alloc_old bs s i (h.1 o ho i hi)
    · rw [look, alloc_new]
  · simp only [List.mem_map] at hi
    obtain ⟨a, _, rfl⟩ := hi
    omega

/-- C165: after every history whatsoever, whichever grids already share bands, a copy, a derived or resized grid and a grid of new values
shows what it would if grids were values, leaves what all other grids show, raises what it would, and has no band in common with any earlier
grid, nor one of the bands the user made. -/
theorem C165_new (b : Band V) (ops : List (Op V)) (op : Op V) (h : Fresh op) :
    let s := (run (start b) ops).1
    view (step s op).1 = (vstep ⟨[], view s⟩ op).1.grids ∧ (step s op).2 = (vstep ⟨[], view s⟩ op).2 ∧
      ∀ o, (step s op).1.grids[s.grids.length]? = some o → (∀ o' ∈ s.grids, ¬ Common o o') ∧ ∀ i ∈ s.own, i ∉ o.ids := by
  intro s
  have hc : Closed s := closed_run ops _ ⟨by simp [start], by simp [start]⟩
  generalize s = s at hc
  have fin : ∀ (s' : St V) (x : GObj V), s'.grids = s.grids ++ [x] → (∀ i ∈ x.ids, s.next ≤ i) →
      ∀ o, s'.grids[s.grids.length]? = some o → (∀ o' ∈ s.grids, ¬ Common o o') ∧ ∀ i ∈ s.own, i ∉ o.ids := by
    intro s' x e hx o ho
    rw [e, List.getElem?_append_right (Nat.le_refl _)] at ho
    simp at ho
    subst ho
    refine ⟨fun o' ho' ⟨i, h1, h2⟩ => ?_, fun i hi hi' => ?_⟩
    · have := hx i h1; have := hc.1 o' ho' i h2; omega
    · have := hx i hi'; have := hc.2 i hi; omega
  have none' : ∀ o, s.grids[s.grids.length]? = some o → (∀ o' ∈ s.grids, ¬ Common o o') ∧ ∀ i ∈ s.own, i ∉ o.ids := by
    intro o ho; simp at ho
  have hv : ∀ g, (view s)[g]? = (s.grids[g]?).map (look s.heap) := fun g => List.getElem?_map ..
  cases op with
  | band _ => exact h.elim
  | wrap _ _ => exact h.elim
  | write _ _ => exact h.elim
  | setNodata _ _ => exact h.elim
  | make imgs nd =>
    obtain ⟨o, h1, h2, h3⟩ := view_addGrid (imgs.map fun p => ⟨false, p⟩) nd s hc
    exact ⟨h2, rfl, fin _ o h1 h3⟩
  | openFile imgs nd =>
    obtain ⟨o, h1, h2, h3⟩ := view_addGrid (imgs.map fun p => ⟨true, p⟩) nd s hc
    exact ⟨h2, rfl, fin _ o h1 h3⟩
  | derive g F =>
    rw [step, vstep]
    dsimp only
    rw [hv]
    cases hg : s.grids[g]? with
    | none => exact ⟨rfl, rfl, none'⟩
    | some o =>
      obtain ⟨o', h1, h2, h3⟩ := view_addGrid ((F o.nodata (o.ids.map fun i => (s.heap i).pix)).map fun p => ⟨false, p⟩) o.nodata s hc
      simp only [Option.map_some, look, List.map_map]
      exact ⟨h2, trivial, fin _ o' h1 h3⟩
  | resize g F =>
    rw [step, vstep]
    dsimp only
    rw [hv]
    cases hg : s.grids[g]? with
    | none => exact ⟨rfl, rfl, none'⟩
    | some o =>
      simp only [Option.map_some, look, List.any_map, List.map_map]
      by_cases hf : (o.ids.any fun i => (s.heap i).file) = true
      · rw [if_pos hf, if_pos (by simpa [Function.comp] using hf)]
        exact ⟨rfl, rfl, none'⟩
      · rw [if_neg hf, if_neg (by simpa [Function.comp] using hf)]
        obtain ⟨o', h1, h2, h3⟩ := view_addGrid (o.ids.map fun i => ⟨false, F o.nodata (s.heap i).pix⟩) o.nodata s hc
        exact ⟨h2, rfl, fin _ o' h1 h3⟩
  | copy g =>
    rw [step, vstep]
    dsimp only
    rw [hv]
    cases hg : s.grids[g]? with
    | none => exact ⟨rfl, rfl, none'⟩
    | some o =>
      simp only [Option.map_some, look, List.any_map]
      by_cases hf : (o.ids.any fun i => (s.heap i).file) = true
      · rw [if_pos hf, if_pos (by simpa [Function.comp] using hf)]
        exact ⟨rfl, rfl, none'⟩
      · rw [if_neg hf, if_neg (by simpa [Function.comp] using hf)]
        refine ⟨?_, rfl, fin _ _ rfl ?_⟩
        · simp only [view, List.map_append, List.map_cons, List.map_nil]
          congr 1
          · exact List.map_congr_left fun o' ho => look_congr fun i hi => alloc_old _ s i (hc.1 o' ho i hi)
          · simp only [look, List.map_map, List.cons.injEq, and_true, VGrid.mk.injEq]
            refine List.map_congr_left fun i hi => ?_
            have hi' := List.idxOf_lt_length_iff.2 (List.mem_dedup.2 hi)
            simp only [Function.comp, alloc]
            rw [if_pos (by omega), Nat.add_sub_cancel_left, List.getElem?_map, List.getElem?_eq_getElem hi', List.getElem_idxOf]
            rfl
        · intro i hi
          simp only [List.mem_map] at hi
          obtain ⟨a, _, rfl⟩ := hi
          omega

/-- C165: a copy shares among its own bands exactly what the original does: two of its bands are one object exactly if the two of the
original are. -/
theorem C165_copy_sharing (s : St V) (g : Nat) (o o' : GObj V) (hg : s.grids[g]? = some o) (he : (step s (.copy g)).2 = none)
    (ho : (step s (.copy g)).1.grids[s.grids.length]? = some o') (j k : Nat) (hj : j < o.ids.length) (hk : k < o.ids.length) :
    o'.ids.length = o.ids.length ∧ (o'.ids[j]? = o'.ids[k]? ↔ o.ids[j]? = o.ids[k]?) := by
  rw [step, hg] at he ho
  dsimp only at he ho
  by_cases hf : (o.ids.any fun i => (s.heap i).file) = true
  · rw [if_pos hf] at he; cases he
  rw [if_neg hf] at ho
  dsimp only at ho
  rw [List.getElem?_append_right (Nat.le_refl _)] at ho
  simp at ho
  subst ho
  refine ⟨by simp, ?_⟩
  simp only [List.getElem?_map, List.getElem?_eq_getElem hj, List.getElem?_eq_getElem hk, Option.map_some, Option.some.injEq]
  constructor
  · intro e
    have e' : o.ids.dedup.idxOf o.ids[j] = o.ids.dedup.idxOf o.ids[k] := by omega
    exact (List.idxOf_inj (List.mem_dedup.2 (List.getElem_mem hj))).1 e'
  · intro e; rw [e]

/-- Two grids that share a band, one of them twice; the copy is equal and shares nothing. -/
example : let s := (run (start (⟨false, []⟩ : Band Int)) [.band [1, 0], .band [5, 6], .wrap [.own 0, .own 0, .own 1] 0, .wrap [.own 0] 9]).1
    Fresh (.copy 0 : Op Int) ∧ ((step s (.copy 0)).1.grids.map GObj.ids) = [[0, 0, 1], [0], [2, 2, 3]] ∧
      (view (step s (.copy 0)).1).map (fun g => (g.bands.map Band.pix, g.nodata)) =
        [([[1, 0], [1, 0], [5, 6]], 0), ([[1, 0]], 9), ([[1, 0], [1, 0], [5, 6]], 0)] := by
  refine ⟨trivial, by decide, by decide⟩

end Karta.BandShare
