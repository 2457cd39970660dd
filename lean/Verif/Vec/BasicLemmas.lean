import Verif.Vec.Basic
import Mathlib.Tactic.Linarith
import Mathlib.Tactic.Ring
import Mathlib.Tactic.FieldSimp

namespace Karta.Vec

theorem foldl_bbox (ps : List Pt) (b : Box) :
    ((ps.foldl bboxStep b).xmin ≤ b.xmin ∧ b.xmax ≤ (ps.foldl bboxStep b).xmax ∧
     (ps.foldl bboxStep b).ymin ≤ b.ymin ∧ b.ymax ≤ (ps.foldl bboxStep b).ymax) ∧
    (∀ p ∈ ps, (ps.foldl bboxStep b).Contains p) ∧
    ((ps.foldl bboxStep b).xmin = b.xmin ∨ ∃ p ∈ ps, p.x = (ps.foldl bboxStep b).xmin) ∧
    ((ps.foldl bboxStep b).xmax = b.xmax ∨ ∃ p ∈ ps, p.x = (ps.foldl bboxStep b).xmax) ∧
    ((ps.foldl bboxStep b).ymin = b.ymin ∨ ∃ p ∈ ps, p.y = (ps.foldl bboxStep b).ymin) ∧
    ((ps.foldl bboxStep b).ymax = b.ymax ∨ ∃ p ∈ ps, p.y = (ps.foldl bboxStep b).ymax) := by
  induction ps generalizing b with
  | nil => simp
  | cons p ps ih =>
    simp only [List.foldl_cons]
    obtain ⟨⟨h1, h2, h3, h4⟩, h5, h6, h7, h8, h9⟩ := ih (bboxStep b p)
    simp only [bboxStep] at h1 h2 h3 h4 h6 h7 h8 h9 ⊢
    refine ⟨⟨?_, ?_, ?_, ?_⟩, ?_, ?_, ?_, ?_, ?_⟩
    · exact le_trans h1 (min_le_left _ _)
    · exact le_trans (le_max_left _ _) h2
    · exact le_trans h3 (min_le_left _ _)
    · exact le_trans (le_max_left _ _) h4
    · intro r hr
      rcases List.mem_cons.1 hr with rfl | hr
      · exact ⟨le_trans h1 (min_le_right _ _), le_trans (le_max_right _ _) h2,
          le_trans h3 (min_le_right _ _), le_trans (le_max_right _ _) h4⟩
      · exact h5 r hr
    · rcases h6 with h | ⟨r, hr, e⟩
      · rcases le_total b.xmin p.x with hle | hle
        · left; rw [h, min_eq_left hle]
        · right; exact ⟨p, by simp, by rw [h, min_eq_right hle]⟩
      · exact Or.inr ⟨r, by simp [hr], e⟩
    · rcases h7 with h | ⟨r, hr, e⟩
      · rcases le_total p.x b.xmax with hle | hle
        · left; rw [h, max_eq_left hle]
        · right; exact ⟨p, by simp, by rw [h, max_eq_right hle]⟩
      · exact Or.inr ⟨r, by simp [hr], e⟩
    · rcases h8 with h | ⟨r, hr, e⟩
      · rcases le_total b.ymin p.y with hle | hle
        · left; rw [h, min_eq_left hle]
        · right; exact ⟨p, by simp, by rw [h, min_eq_right hle]⟩
      · exact Or.inr ⟨r, by simp [hr], e⟩
    · rcases h9 with h | ⟨r, hr, e⟩
      · rcases le_total p.y b.ymax with hle | hle
        · left; rw [h, max_eq_left hle]
        · right; exact ⟨p, by simp, by rw [h, max_eq_right hle]⟩
      · exact Or.inr ⟨r, by simp [hr], e⟩

theorem bbox_contains {ps : List Pt} {b : Box} (h : bbox ps = some b) : ∀ p ∈ ps, b.Contains p := by
  cases ps with
  | nil => simp [bbox] at h
  | cons p ps =>
    simp only [bbox, Option.some.injEq] at h
    subst h
    obtain ⟨⟨h1, h2, h3, h4⟩, h5, _⟩ := foldl_bbox ps ⟨p.x, p.y, p.x, p.y⟩
    intro r hr
    rcases List.mem_cons.1 hr with rfl | hr
    · exact ⟨h1, h2, h3, h4⟩
    · exact h5 r hr

end Karta.Vec
