import Verif.SpecTables
import Verif.SummaryLemmas

/-!
# Lemmas about the tables of keys and messages
-/

namespace K431
open Spec

theorem joinRunes_commas : ∀ xs : List Runes, joinRunes (lit ",") xs = commas (xs.map goStr)
  | [] => rfl
  | [x] => rfl
  | x :: y :: ys => by
    have := joinRunes_commas (y :: ys)
    show goStr x ++ lit "," ++ joinRunes (lit ",") (y :: ys) = _
    rw [this]
    rfl

theorem commas_length (x : Runes) (xs : List Runes) : (commas (x :: xs)).length + 1 = ((x :: xs).map (fun s => s.length + 1)).sum := by
  induction xs generalizing x with
  | nil => simp [commas]
  | cons y ys ih =>
    have := ih y
    simp only [commas, List.length_append, List.length_cons, List.length_nil, List.map_cons, List.sum_cons] at this ⊢
    omega

theorem withPadding_eq (f : Runes) (n : Int) : withPadding f n = f ++ List.replicate (n - f.length).toNat 32 := rfl

theorem goStr_len (s : Runes) : (goStr s).length = s.length := by simp [goStr]

/-- width of the field of the keepers -/
def keepersLen (k : Key) : Nat := (if k.names = [] then lit "Anonymous" else commas (k.names.map goStr)).length

theorem keepersLen_eq (k : Key) : (k.keepers.length = 0 → keepersLen k = 9) ∧
    (k.keepers.length ≠ 0 → keepersLen k + 1 = (k.keepers.map (fun s => s.val.length + 1)).sum) := by
  constructor
  · intro h
    have : k.names = [] := by simpa [Key.names] using h
    rw [keepersLen, if_pos this]
    rfl
  · intro h
    rcases hk : k.keepers with _ | ⟨x, xs⟩
    · rw [hk] at h; exact absurd rfl h
    · have hn : k.names = x.val :: xs.map Sl.val := by simp [Key.names, hk]
      rw [keepersLen, hn, if_neg (by simp), List.map_cons, commas_length]
      simp [goStr_len, Function.comp_def]

theorem keySizesLoop_spec : ∀ (ks : List Key) (a b : Int),
    a ≤ (keySizesLoop ks (a, b)).1 ∧ b ≤ (keySizesLoop ks (a, b)).2 ∧ ∀ k ∈ ks, (keepersLen k : Int) ≤ (keySizesLoop ks (a, b)).1 := by
  intro ks
  induction ks with
  | nil => intro a b; exact ⟨Int.le_refl _, Int.le_refl _, by simp⟩
  | cons k ks ih =>
    intro a b
    unfold keySizesLoop
    dsimp only
    obtain ⟨h0, h1⟩ := keepersLen_eq k
    have h9 : lenStr "Anonymous" = 9 := rfl
    split
    · rename_i he
      have e := h0 he
      obtain ⟨i1, i2, i3⟩ := ih (if a < lenStr "Anonymous" then lenStr "Anonymous" else a) (if b < ↑k.comment.length then ↑k.comment.length else b)
      have hle : a ≤ (if a < lenStr "Anonymous" then lenStr "Anonymous" else a) ∧ (9 : Int) ≤ (if a < lenStr "Anonymous" then lenStr "Anonymous" else a) := by
        rw [h9]; split <;> omega
      have hleb : b ≤ (if b < ↑k.comment.length then ↑k.comment.length else b) := by split <;> omega
      refine ⟨Int.le_trans hle.1 i1, Int.le_trans hleb i2, fun k' hk' => ?_⟩
      rcases List.mem_cons.mp hk' with rfl | hk'
      · rw [e]; exact Int.le_trans hle.2 i1
      · exact i3 k' hk'
    · rename_i he
      have e := h1 he
      rw [← e]
      generalize ha' : (if (((keepersLen k + 1 : Nat) : Int) > 0 ∧ a < ((keepersLen k + 1 : Nat) : Int)) then ((keepersLen k + 1 : Nat) : Int) - 1 else a) = a'
      obtain ⟨i1, i2, i3⟩ := ih a' (if b < ↑k.comment.length then ↑k.comment.length else b)
      have hle : a ≤ a' ∧ (keepersLen k : Int) ≤ a' := by
        rw [← ha']; split <;> omega
      have hleb : b ≤ (if b < ↑k.comment.length then ↑k.comment.length else b) := by split <;> omega
      refine ⟨Int.le_trans hle.1 i1, Int.le_trans hleb i2, fun k' hk' => ?_⟩
      rcases List.mem_cons.mp hk' with rfl | hk'
      · exact Int.le_trans hle.2 i1
      · exact i3 k' hk'

theorem cut_column {f rest : Runes} {n : Nat} {z : Int} {ws : List Nat} {fs : List Runes} (hz : z = (n : Int) + 1) (hf : f.length ≤ n)
    (h : InColumns ws fs rest) : InColumns ((n + 1) :: ws) (f :: fs) (withPadding f z ++ rest) := by
  refine ⟨by omega, rest, ?_, h⟩
  rw [withPadding_eq, hz]
  congr 3
  omega

theorem head_column {s : String} {rest : Runes} {n : Nat} {ws : List Nat} {fs : List Runes} (hf : (lit s).length ≤ n)
    (h : InColumns ws fs rest) : InColumns ((n + 1) :: ws) (lit s :: fs) (lit s ++ List.replicate ((n : Int) - lenStr s + 1).toNat 32 ++ rest) := by
  refine ⟨by omega, rest, ?_, h⟩
  congr 3
  unfold lenStr
  omega

theorem inColumns_length : ∀ (ws : List Nat) (fs : List Runes) (line : Runes), InColumns ws fs line →
    (fs.map List.length).sum + fs.length ≤ line.length + 1
  | [], [f], line, h => by
    obtain ⟨n, rfl⟩ := h
    simp
  | w :: ws, f :: fs, line, h => by
    obtain ⟨h1, rest, rfl, h2⟩ := h
    have := inColumns_length ws fs rest h2
    simp only [List.map_cons, List.sum_cons, List.length_cons, List.length_append, List.length_replicate]
    omega
  | [], [], _, h => absurd h id
  | [], _ :: _ :: _, _, h => absurd h id
  | _ :: _, [], _, h => absurd h id

/-- width of the field of the recipients -/
def recipientsLen (m : Msg) : Nat := (if m.recipients = [] then lit "NIL" else commas (m.recipients.map goStr)).length

theorem recipientsLen_eq (m : Msg) : (m.recipients.length = 0 → recipientsLen m = 3) ∧
    (m.recipients.length ≠ 0 → recipientsLen m + 1 = (m.recipients.map (fun s => s.length + 1)).sum) := by
  constructor
  · intro h
    rw [recipientsLen, if_pos (by simpa using h)]
    rfl
  · intro h
    rcases hk : m.recipients with _ | ⟨x, xs⟩
    · rw [hk] at h; exact absurd rfl h
    · rw [recipientsLen, hk, if_neg (by simp), List.map_cons, commas_length]
      simp [goStr_len, Function.comp_def]

theorem msgSizesLoop_spec : ∀ (ms : List Msg) (a b : Int),
    a ≤ (msgSizesLoop ms (a, b)).1 ∧ b ≤ (msgSizesLoop ms (a, b)).2 ∧ ∀ m ∈ ms, (recipientsLen m : Int) ≤ (msgSizesLoop ms (a, b)).1 ∧
      (m.from_.length : Int) ≤ (msgSizesLoop ms (a, b)).2 := by
  intro ms
  induction ms with
  | nil => intro a b; exact ⟨Int.le_refl _, Int.le_refl _, by simp⟩
  | cons m ms ih =>
    intro a b
    unfold msgSizesLoop
    dsimp only
    obtain ⟨h0, h1⟩ := recipientsLen_eq m
    have h3 : lenStr "NIL" = 3 := rfl
    generalize hb' : (if b < (m.from_.length : Int) then (m.from_.length : Int) else b) = b'
    have hleb : b ≤ b' ∧ (m.from_.length : Int) ≤ b' := by rw [← hb']; split <;> omega
    split
    · rename_i he
      have e := h0 he
      rw [h3]
      generalize ha' : (if a < 3 then 3 else a) = a'
      obtain ⟨i1, i2, i3⟩ := ih a' b'
      have hle : a ≤ a' ∧ (3 : Int) ≤ a' := by rw [← ha']; split <;> omega
      refine ⟨Int.le_trans hle.1 i1, Int.le_trans hleb.1 i2, fun k' hk' => ?_⟩
      rcases List.mem_cons.mp hk' with rfl | hk'
      · exact ⟨by rw [e]; exact Int.le_trans hle.2 i1, Int.le_trans hleb.2 i2⟩
      · exact i3 k' hk'
    · rename_i he
      have e := h1 he
      rw [← e]
      generalize ha' : (if (((recipientsLen m + 1 : Nat) : Int) > 0 ∧ a < ((recipientsLen m + 1 : Nat) : Int)) then ((recipientsLen m + 1 : Nat) : Int) - 1 else a) = a'
      obtain ⟨i1, i2, i3⟩ := ih a' b'
      have hle : a ≤ a' ∧ (recipientsLen m : Int) ≤ a' := by
        rw [← ha']; split <;> omega
      refine ⟨Int.le_trans hle.1 i1, Int.le_trans hleb.1 i2, fun k' hk' => ?_⟩
      rcases List.mem_cons.mp hk' with rfl | hk'
      · exact ⟨Int.le_trans hle.2 i1, Int.le_trans hleb.2 i2⟩
      · exact i3 k' hk'

theorem selected_eq (filter : Msg → Bool) : ∀ (l l' : List Msg), l.length = l'.length →
    selected filter l l' = ((List.range l.length).filter (selectedAt filter l)).filterMap (fun i => l'[i]?)
  | [], [], _ => rfl
  | x :: l, y :: l', h => by
    have ih := selected_eq filter l l' (by simpa using h)
    have e : selectedAt filter (x :: l) ∘ Nat.succ = selectedAt filter l := by
      funext i
      simp [selectedAt]
    rw [List.length_cons, List.range_succ_eq_map, List.filter_cons, List.filter_map, e]
    have e2 : (fun i => (y :: l')[i]?) ∘ Nat.succ = fun i => l'[i]? := by
      funext i
      simp
    unfold selected at ih ⊢
    by_cases hx : filter x = true
    · rw [List.zip_cons_cons, List.filter_cons_of_pos (by exact hx), if_pos (by simp [selectedAt, hx]), List.filterMap_cons_some (b := y) (by rfl),
        List.filterMap_map, e2, List.map_cons, ih]
    · rw [List.zip_cons_cons, List.filter_cons_of_neg (by exact hx), if_neg (by simp [selectedAt, hx]), List.filterMap_map, e2, ih]
  | [], _ :: _, h => by simp at h
  | _ :: _, [], h => by simp at h

end K431
