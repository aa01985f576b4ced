import Verif.RunLemmas
import Verif.PfkCmdLemmas

/-!
# Lemmas for options given together
-/

namespace K431
open Spec

/-- a section that stops only with an error and else has gone to a file `n` times -/
def Goes (n : Nat) (f : Cmd → Option Course) : Prop :=
  ∀ s r, f s = some r → r.outcome = .ok () → ∃ s', r = .go s' ∧ s.touched.length + n ≤ s'.touched.length

theorem saveStep_goes (C : Codec) (E : PwEnv) (W : World) : Goes 1 (saveStep C E W) := by
  intro s r h hok
  obtain ⟨q, -, rfl⟩ := saveStep_some h
  rw [check_outcome] at hok
  exact ⟨_, check_ok hok _, by simp [Cmd.saved]⟩

theorem check_then {o : Outcome Unit} {s : Cmd} {f : Cmd → Option Course} {r : Course} (h : andThen (some (check o s)) f = some r) (hok : r.outcome = .ok ()) : f s = some r := by
  rcases andThen_check h with ⟨-, h⟩ | ⟨hne, rfl⟩
  · exact h
  · exact absurd hok hne

theorem Goes.after {n m : Nat} {c : Option Course} {f : Cmd → Option Course} {r : Course} (hf : Goes n f) (h : andThen c f = some r) (hok : r.outcome = .ok ())
    (hc : ∀ r', c = some r' → r'.outcome = .ok () → ∃ s', r' = .go s' ∧ m ≤ s'.touched.length) : ∃ s', r = .go s' ∧ m + n ≤ s'.touched.length := by
  rcases c with _ | ⟨s⟩ | ⟨oc, s⟩
  · cases h
  · obtain ⟨s', e, hm⟩ := hc _ rfl rfl
    cases e
    obtain ⟨s', rfl, hn⟩ := hf _ _ h hok
    exact ⟨s', rfl, by omega⟩
  · rw [andThen_stop] at h
    cases h
    obtain ⟨s', e, -⟩ := hc _ rfl hok
    cases e

theorem keysNew_goes (C : Codec) (E : PwEnv) (U : Unicode) (V : KeysEnv) (o : KeysCmd) :
    Goes (if ∃ n, o.newKeys = some n ∧ 0 < n then 1 else 0) (keysNew C E U V o) := by
  intro s r h hok
  unfold keysNew at h
  rcases hn : o.newKeys with _ | n
  · rw [hn] at h; cases h
    exact ⟨s, rfl, by simp⟩
  · rw [hn] at h
    dsimp only at h
    by_cases hp : n > 0
    · rw [if_pos hp] at h
      rw [if_pos ⟨n, rfl, hp⟩]
      split at h
      · cases h
      · have := saveStep_goes C E V.newW _ r (check_then h hok) hok
        exact this
    · rw [if_neg hp] at h; cases h
      refine ⟨s, rfl, ?_⟩
      rw [if_neg]
      · simp
      · rintro ⟨m, hm, h0⟩
        cases hm
        exact hp h0

theorem keysImport_goes (C : Codec) (E : PwEnv) (U : Unicode) (V : KeysEnv) (o : KeysCmd) : Goes (if o.importFile.isSome then 1 else 0) (keysImport C E U V o) := by
  intro s r h hok
  unfold keysImport at h
  rcases hn : o.importFile with _ | f
  · rw [hn] at h; cases h
    exact ⟨s, rfl, by simp⟩
  · rw [hn] at h
    dsimp only at h
    split at h
    · cases h; cases hok
    · split at h
      · cases h
      · have := saveStep_goes C E V.importW _ r (check_then h hok) hok
        exact this

theorem keysExport_goes (C : Codec) (E : PwEnv) (U : Unicode) (V : KeysEnv) (o : KeysCmd) : Goes (if o.exportFile.isSome then 1 else 0) (keysExport C E U V o) := by
  intro s r h hok
  unfold keysExport at h
  rcases hn : o.exportFile with _ | f
  · rw [hn] at h; cases h
    exact ⟨s, rfl, by simp⟩
  · rw [hn] at h
    dsimp only at h
    split at h
    · cases h; cases hok
    · rw [Option.map_eq_some_iff] at h
      obtain ⟨q, -, rfl⟩ := h
      rw [check_outcome] at hok
      exact ⟨_, check_ok hok _, by simp [Cmd.saved]⟩

theorem messagesNew_goes (C : Codec) (E : PwEnv) (U : Unicode) (V : MsgsEnv) (o : MsgsCmd) (hn : o.new = true) : Goes 1 (messagesNew C E U V o) := by
  intro s r h hok
  unfold messagesNew at h
  rw [if_pos hn] at h
  split at h
  · cases h; cases hok
  · split at h
    · cases h
    · cases h; cases hok
    · cases h; cases hok
    · have := saveStep_goes C E V.newW _ r h hok
      exact this

/-- what follows adds to the files only -/
theorem tail_touched {α : Type} {c : Option Course} {g : Cmd → Course} {out : Cmd → Course} {r : Course} {m : Nat} {W : World} {type : Option (List Nat)}
    {render : OutKind → List α → Option (List Nat)} {file : Option (List Nat)} {items : Cmd → List α}
    (hg : ∀ s, (g s).state.touched = s.touched) (hout : ∀ s, out s = outputStep W type render file (items s) s)
    (h : andThen (andThen c (fun s => some (g s))) (fun s => some (out s)) = some r) (hok : r.outcome = .ok ())
    (hc : ∀ r', c = some r' → r'.outcome = .ok () → ∃ s', r' = .go s' ∧ m ≤ s'.touched.length) : m ≤ r.state.touched.length := by
  rcases c with _ | ⟨s⟩ | ⟨oc, s⟩
  · cases h
  · obtain ⟨s', e, hm⟩ := hc _ rfl rfl
    cases e
    rw [andThen_go] at h
    have h1 := hg s
    rcases hgs : g s with s1 | ⟨oc, s1⟩
    · rw [hgs] at h h1
      rw [andThen_go, Option.some.injEq, hout] at h
      obtain ⟨-, l, e, -⟩ := outputStep_state W type render file (items s1) s1 (f := 0 :: file.getD []) (by
        intro e
        rw [e] at e
        have := congrArg (fun o : Option (List Nat) => (o.getD []).length) e
        simp at this)
      rw [← h, e]
      simp only [Course.state] at h1
      rw [h1]
      simp only [List.length_append]
      omega
    · rw [hgs] at h h1
      rw [andThen_stop, Option.some.injEq] at h
      subst h
      simp only [Course.state] at h1 ⊢
      rw [h1]; exact hm
  · rw [andThen_stop, andThen_stop] at h
    cases h
    obtain ⟨s', e, -⟩ := hc _ rfl hok
    cases e

end K431
