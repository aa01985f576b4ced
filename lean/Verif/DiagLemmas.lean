import Verif.GoString
import Verif.SpecDiag
import Verif.SpecTables
import Verif.TableLemmas

/-! # Lemmas: taking the diagnostic form apart -/

namespace K431
open Spec

theorem cut_at {q : Rune} : ∀ {a b x y : Runes}, q ∉ a → q ∉ b → a ++ q :: x = b ++ q :: y → a = b ∧ x = y
  | [], [], x, y, _, _, h => by simpa using h
  | [], c :: b, x, y, _, hb, h => by
    simp only [List.nil_append, List.cons_append, List.cons.injEq] at h
    exact absurd (h.1 ▸ List.mem_cons_self) hb
  | c :: a, [], x, y, ha, _, h => by
    simp only [List.nil_append, List.cons_append, List.cons.injEq] at h
    exact absurd (h.1 ▸ List.mem_cons_self) ha
  | c :: a, d :: b, x, y, ha, hb, h => by
    simp only [List.cons_append, List.cons.injEq] at h
    have := cut_at (fun m => ha (List.mem_cons_of_mem _ m)) (fun m => hb (List.mem_cons_of_mem _ m)) h.2
    exact ⟨by rw [h.1, this.1], this.2⟩

theorem cut_sep {q : Rune} {s sep a b x y : Runes} (hs : sep = q :: s) (ha : q ∉ a) (hb : q ∉ b)
    (h : a ++ (sep ++ x) = b ++ (sep ++ y)) : a = b ∧ x = y := by
  subst hs
  simp only [List.cons_append] at h
  have := cut_at ha hb h
  exact ⟨this.1, List.append_cancel_left this.2⟩

theorem commas_mem {q : Rune} (hq : q ≠ 44) : ∀ {l : List Runes}, (∀ w ∈ l, q ∉ w) → q ∉ commas l
  | [], _ => by simp [commas]
  | [x], h => by simpa [commas] using h
  | x :: y :: l, h => by
    have := commas_mem hq (l := y :: l) (fun w hw => h w (List.mem_cons_of_mem _ hw))
    have hx := h x List.mem_cons_self
    simp only [commas, List.mem_append, List.mem_singleton, not_or]
    exact ⟨⟨hx, hq⟩, this⟩

theorem commas_inj : ∀ {l l' : List Runes}, PlainNames l → PlainNames l' → commas l = commas l' → l = l'
  | [], [], _, _, _ => rfl
  | [], [y], _, h', h => absurd h.symm (h' y (by simp)).1
  | [], y :: z :: l', _, _, h => by simp [commas] at h
  | [x], [], hl, _, h => absurd h (hl x (by simp)).1
  | x :: z :: l, [], _, _, h => by simp [commas] at h
  | [x], [y], _, _, h => by simpa [commas] using h
  | [x], y :: z :: l', hl, _, h => by
    exfalso
    have hx := (hl x (by simp)).2.1
    rw [show commas [x] = x from rfl] at h
    rw [h] at hx
    simp [commas] at hx
  | x :: z :: l, [y], _, hl, h => by
    exfalso
    have hx := (hl y (by simp)).2.1
    rw [show commas [y] = y from rfl] at h
    rw [← h] at hx
    simp [commas] at hx
  | x :: z :: l, y :: u :: l', hl, hl', h => by
    simp only [commas, List.append_assoc, List.singleton_append] at h
    have := cut_at (hl x (by simp)).2.1 (hl' y (by simp)).2.1 h
    have ih := commas_inj (fun w hw => hl w (List.mem_cons_of_mem _ hw)) (fun w hw => hl' w (List.mem_cons_of_mem _ hw)) this.2
    rw [this.1, ih]

theorem join_plain {l : List Runes} (h : PlainNames l) : joinRunes (lit ",") l = commas l := by
  rw [joinRunes_commas]
  congr 1
  conv => rhs; rw [← List.map_id l]
  exact List.map_congr_left fun w hw => (h w hw).2.2.2

theorem join_plain_mem {l : List Runes} (h : PlainNames l) : (93 : Rune) ∉ joinRunes (lit ",") l := by
  rw [join_plain h]
  exact commas_mem (by decide) fun w hw => (h w hw).2.2.1

theorem fmtBool_mem (b : Bool) : (32 : Rune) ∉ fmtBool b := by cases b <;> decide

theorem fmtBool_inj {a b : Bool} (h : fmtBool a = fmtBool b) : a = b := by
  cases a <;> cases b <;> first | rfl | (revert h; decide)

end K431
