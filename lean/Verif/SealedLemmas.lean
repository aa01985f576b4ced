import Verif.SpecSealed
import Verif.CliLemmas
import Verif.PfkCmdLemmas
import Verif.InitLemmas
import Verif.HandCmdLemmas
import Verif.OrderLemmas
import Verif.ListingLemmas

/-!
# What is written to files: lemmas
-/

namespace K431
open Spec

theorem andThen_state {Q : Cmd → Prop} {x : Option Course} {f : Cmd → Option Course} {r : Course} (h : andThen x f = some r) (h1 : ∀ q, x = some q → Q q.state)
    (h2 : ∀ s, Q s → ∀ q, f s = some q → Q q.state) : Q r.state := by
  rcases x with _ | s | ⟨o, s⟩
  · cases h
  · exact h2 s (h1 _ rfl) r h
  · simp only [andThen, Option.some.injEq] at h
    rw [← h]
    exact h1 _ rfl

theorem check_Q {Q : Cmd → Prop} {o : Outcome Unit} {s : Cmd} (h : Q s) {q : Course} (hq : some (check o s) = some q) : Q q.state := by
  simp only [Option.some.injEq] at hq
  rw [← hq, check_state]
  exact h

theorem saveKey_pfk {C : Codec} {E : PwEnv} {W : World} {k : Krypto} {r : SaveRun} {key : List Nat} (h : saveKey C E W k = some r) (hk : k.pfk = some key) : r.k = k := by
  unfold saveKey at h
  rw [hk] at h
  simp only [Option.some.injEq] at h
  rw [← h, saveWrite_k]

theorem save_pfk {C : Codec} {E : PwEnv} {W : World} {disk : Disk} {k : Krypto} {r : SaveRun} {key : List Nat} (h : save C E W disk k = some r) (hk : k.pfk = some key) :
    r.k.pfk = some key := by
  have hw : ∀ p, saveKey C E W { k with persistence := p } = some r → r.k.pfk = some key := by
    intro p h
    rw [saveKey_pfk (k := { k with persistence := p }) h hk]
    exact hk
  unfold save at h
  dsimp only at h
  repeat' split at h
  all_goals first
    | exact hw _ h
    | (simp only [Option.some.injEq] at h; rw [← h]; exact hk)

theorem save_encrypted {C : Codec} {E : PwEnv} {W : World} {disk : Disk} {k : Krypto} {r : SaveRun} (h : save C E W disk k = some r) :
    (∀ c ∈ r.contents, ∃ key, r.k.pfk = some key ∧ Encrypted C key c) ∧ ∀ key, k.pfk = some key → r.k.pfk = some key := by
  have keep : ∀ key, k.pfk = some key → r.k.pfk = some key := by
    intro key hk
    exact save_pfk h hk
  refine ⟨?_, keep⟩
  rcases save_cases h with ⟨h1, -⟩ | ⟨path, key, -, -, -, -, e, -⟩
  · rw [h1]; simp
  · intro c hc
    refine ⟨key, by rw [e, saveWrite_k], W.nonce, gobInst k.inst, ?_⟩
    rw [e] at hc
    revert c
    unfold saveWrite
    have pre : ∀ n, ∀ c ∈ (List.range n).map (C.enc (key.take 32) W.nonce (gobInst k.inst)).take, c <+: C.enc (key.take 32) W.nonce (gobInst k.inst) := by
      intro n c hc
      obtain ⟨j, -, rfl⟩ := List.mem_map.1 hc
      exact List.take_prefix _ _
    dsimp only
    split
    · simp
    split
    · simp
    split
    · exact pre _
    split <;> exact pre _

/-- every file is as before or one of those written -/
def Traced (disk : Disk) (s : Cmd) : Prop := ∀ p, s.disk p = disk p ∨ ∃ t ∈ s.touched, t.path = p ∧ ∃ c ∈ t.contents, s.disk p = some c

theorem Traced.leaves {disk disk' : Disk} {r : Course} (h : Traced disk r.state) (hl : MayLeave disk r disk') (p : List Nat) :
    disk' p = disk p ∨ ∃ t ∈ r.state.touched, t.path = p ∧ ∃ c ∈ t.contents, disk' p = some c := by
  rcases hl with rfl | hl
  · exact h p
  · exact hl p

theorem Traced.wrote {disk : Disk} {s : Cmd} (h : Traced disk s) {d : Disk} {k : Krypto} {t : Touch} {ps : List Printed}
    (hd : d = s.disk ∨ ∃ c ∈ t.contents, d = s.disk.set t.path c) : Traced disk ⟨d, k, s.touched ++ [t], ps⟩ := by
  intro p
  dsimp only
  have old : d p = s.disk p → d p = disk p ∨ ∃ t' ∈ s.touched ++ [t], t'.path = p ∧ ∃ c ∈ t'.contents, d p = some c := by
    intro e
    rcases h p with h | ⟨t', h1, h2, h3⟩
    · left; rw [e, h]
    · right; exact ⟨t', List.mem_append_left _ h1, h2, by rw [e]; exact h3⟩
  rcases hd with rfl | ⟨c, hc, rfl⟩
  · exact old rfl
  · by_cases hp : p = t.path
    · right; exact ⟨t, by simp, hp.symm, c, hc, by rw [hp]; exact set_same _ _ _⟩
    · exact old (set_other _ _ hp)

theorem SaveRun.disk_traced (r : SaveRun) (d : Disk) : r.disk d = d ∨ ∃ c ∈ r.contents, r.disk d = d.set r.k.persistence c := by
  unfold SaveRun.disk
  split
  · exact .inl rfl
  · rename_i c hc
    exact .inr ⟨c, List.mem_of_getLast? hc, rfl⟩

/-- the state of a command that has an open store: the key, what has been written, what has been printed -/
structure Sealed (C : Codec) (disk : Disk) (key : List Nat) (P : List Nat → List Nat → Prop) (T : Printed → Prop) (s : Cmd) : Prop where
  opened : s.k.pfk = some key
  touched : ∀ t ∈ s.touched, ∀ c ∈ t.contents, P t.path c ∨ Encrypted C key c
  traced : Traced disk s
  printed : ∀ p ∈ s.printed, T p

theorem Sealed.saved {C : Codec} {E : PwEnv} {W : World} {disk : Disk} {key : List Nat} {P : List Nat → List Nat → Prop} {T : Printed → Prop} {s : Cmd} {k : Krypto} {r : SaveRun}
    (h : Sealed C disk key P T s) (hk : k.pfk = some key) (hs : save C E W s.disk k = some r) : Sealed C disk key P T (s.saved r) := by
  obtain ⟨h1, h2⟩ := save_encrypted hs
  refine ⟨h2 key hk, ?_, h.traced.wrote (r.disk_traced _), h.printed⟩
  intro t ht c hc
  rcases List.mem_append.1 ht with ht | ht
  · exact h.touched t ht c hc
  · rw [List.mem_singleton.1 ht] at hc
    right
    obtain ⟨key', e, h1⟩ := h1 c hc
    rw [h2 key hk, Option.some.injEq] at e
    rw [e]; exact h1

theorem Sealed.save {C : Codec} {E : PwEnv} {W : World} {key : List Nat} {disk : Disk} {P : List Nat → List Nat → Prop} {T : Printed → Prop} {s : Cmd} (h : Sealed C disk key P T s) {q : Course}
    (hq : saveStep C E W s = some q) : Sealed C disk key P T q.state := by
  unfold saveStep at hq
  rcases hs : K431.save C E W s.disk s.k with _ | r
  · rw [hs] at hq; cases hq
  rw [hs] at hq
  simp only [Option.map_some, Option.some.injEq] at hq
  rw [← hq, check_state]
  exact h.saved h.opened hs

theorem Sealed.inst {C : Codec} {key : List Nat} {disk : Disk} {P : List Nat → List Nat → Prop} {T : Printed → Prop} {s : Cmd} (h : Sealed C disk key P T s) (i : Inst) :
    Sealed C disk key P T { s with k := { s.k with inst := i } } := ⟨h.opened, h.touched, h.traced, h.printed⟩

theorem Sealed.output {α : Type} {C : Codec} {disk : Disk} {W : World} {type : Option (List Nat)} {render : OutKind → List α → Option (List Nat)} {file : Option (List Nat)}
    {items : List α} {s : Cmd} {key : List Nat} {T : Printed → Prop} {sel : α → Prop} (hi : ∀ x ∈ items, sel x) (h : Sealed C disk key (Shown sel render file) T s) :
    Sealed C disk key (Shown sel render file) T (outputStep W type render file items s).state := by
  have hw : ∀ kind f body, file = some f → render kind items = some body → Sealed C disk key (Shown sel render file) T (writeOutput W f body s).state := by
    intro kind f body hf hb
    unfold writeOutput
    split
    · exact h
    · have hf : ∀ n, Sealed C disk key (Shown sel render file) T { s with disk := s.disk.set f (body.take n), touched := s.touched ++ [⟨f, (List.range (n + 1)).map body.take⟩] } := by
        intro n
        refine ⟨h.opened, ?_, h.traced.wrote (.inr ⟨body.take n, List.mem_map.2 ⟨n, by simp, rfl⟩, rfl⟩), h.printed⟩
        intro t ht c hc
        rcases List.mem_append.1 ht with ht | ht
        · exact h.touched t ht c hc
        · rw [List.mem_singleton.1 ht] at hc ⊢
          refine .inl ⟨hf, kind, items, body, hi, hb, ?_⟩
          obtain ⟨j, -, rfl⟩ := List.mem_map.1 hc
          exact List.take_prefix _ _
      dsimp only
      split <;> split <;> exact hf _
  unfold outputStep
  split
  · exact h
  split
  · exact h
  split
  · exact h
  · split
    · exact h
    · split
      · exact h
      · exact hw _ _ _ rfl (by assumption)
  · split
    · exact h
    · split
      · exact h
      · exact hw _ _ _ rfl (by assumption)

theorem load_opens {C : Codec} {E : PwEnv} {W : World} {disk : Disk} {k k' : Krypto} (h : load C E W disk k = some (.ok (), k')) : ∃ key, k'.pfk = some key := by
  obtain ⟨path, key, c, w, -, -, -, -, rfl, -⟩ := load_ok h
  exact ⟨key, rfl⟩

theorem importFrom_pfk {C : Codec} {E : PwEnv} {W : World} {U : Unicode} {noise : Nat → Noise} {answer : Key → Option Bool} {filter : Key → Bool} {f : List Nat} {disk : Disk}
    {own : Krypto} {r : Outcome Unit} {n : Nat} {k : Krypto}
    (h : importFrom C E W U noise answer filter [.persistence f, .interactive true] disk own = some (r, n, k)) : k.pfk = own.pfk := by
  have hs : (newIncoming U own [.persistence f, .interactive true]).sharesPFK = false := rfl
  unfold importFrom at h
  dsimp only at h
  rw [hs] at h
  rw [if_neg (by decide)] at h
  repeat' split at h
  · cases h
  all_goals simp only [Option.some.injEq, Prod.mk.injEq] at h; rw [← h.2.2]

section
variable {C : Codec} {E : PwEnv} {U : Unicode} {key : List Nat} {disk : Disk} {P : List Nat → List Nat → Prop} {T : Printed → Prop} {s : Cmd} {q : Course}

theorem Sealed.keysDelete {V : KeysEnv} {o : KeysCmd} (h : Sealed C disk key P T s) (hq : keysDelete C E U V o s = some q) : Sealed C disk key P T q.state := by
  unfold K431.keysDelete at hq
  dsimp only at hq
  repeat' split at hq
  all_goals first
    | exact (h.inst _).save hq
    | (simp only [Option.some.injEq] at hq; rw [← hq]; first | exact h | exact h.inst _)

theorem Sealed.keysNew {V : KeysEnv} {o : KeysCmd} (h : Sealed C disk key P T s) (hq : keysNew C E U V o s = some q) : Sealed C disk key P T q.state := by
  unfold K431.keysNew at hq
  dsimp only at hq
  repeat' split at hq
  · simp only [Option.some.injEq] at hq; rw [← hq]; exact h
  · cases hq
  · exact andThen_state (Q := Sealed C disk key P T) hq (fun q' h' => check_Q (h.inst _) h') (fun s' h' q' hq' => h'.save hq')
  · simp only [Option.some.injEq] at hq; rw [← hq]; exact h

theorem Sealed.keysImport {V : KeysEnv} {o : KeysCmd} (h : Sealed C disk key P T s) (hq : keysImport C E U V o s = some q) : Sealed C disk key P T q.state := by
  unfold K431.keysImport at hq
  repeat' split at hq
  · simp only [Option.some.injEq] at hq; rw [← hq]; exact h
  · simp only [Option.some.injEq] at hq; rw [← hq]; exact h
  · cases hq
  · rename_i hi
    exact andThen_state (Q := Sealed C disk key P T) hq (fun q' h' => check_Q (Q := Sealed C disk key P T) (s := { s with k := _ }) ⟨(importFrom_pfk hi).trans h.opened, h.touched, h.traced, h.printed⟩ h')
      (fun s' h' q' hq' => h'.save hq')

theorem Sealed.keysExport {V : KeysEnv} {o : KeysCmd} (h : Sealed C disk key P T s) (hq : keysExport C E U V o s = some q) : Sealed C disk key P T q.state := by
  unfold K431.keysExport at hq
  repeat' split at hq
  · simp only [Option.some.injEq] at hq; rw [← hq]; exact h
  · simp only [Option.some.injEq] at hq; rw [← hq]; exact h
  · rename_i f _ _
    cases hs : K431.save C E V.exportW s.disk (exportKeys (keyFilter U V.now o.filter) [withPersistence f, withOverwrite o.yes] s.k) with
    | none => rw [hs] at hq; cases hq
    | some r =>
      rw [hs, Option.map_some, Option.some.injEq] at hq
      rw [← hq, check_state]
      have := h.saved (k := exportKeys (keyFilter U V.now o.filter) [withPersistence f, withOverwrite o.yes] s.k)
        (by simp [exportKeys, withPersistence, withOverwrite, h.opened]) hs
      exact ⟨h.opened, this.touched, this.traced, this.printed⟩

theorem Sealed.also {p : Printed} (h : Sealed C disk key P T s) (hp : T p) : Sealed C disk key P T { s with printed := s.printed ++ [p] } := by
  refine ⟨h.opened, h.touched, h.traced, ?_⟩
  intro x hx
  rcases List.mem_append.1 hx with hx | hx
  · exact h.printed x hx
  · rw [List.mem_singleton.1 hx]; exact hp

theorem listingOf_blank (U : Unicode) (date : Int → Runes) (now : Int) (f : KeyOpts) (k : Krypto) :
    KeyListing U date (keyFilter U now f) (listingOf U k (summaryOfKeys date (keyFilter U now f) k.inst).1 (summaryOfKeys date (keyFilter U now f) k.inst).2) := by
  refine ⟨{ k with inst := { k.inst with keys := k.inst.keys.map blankKey } }, ?_, ?_⟩
  · intro x hx
    obtain ⟨y, -, rfl⟩ := List.mem_map.1 hx
    rfl
  · dsimp only
    rw [summaryOfKeys_blank date (keyFilter U now f) (fun _ => rfl) k.inst]
    unfold listingOf
    dsimp only
    rw [List.length_map]

theorem Sealed.keysList {V : KeysEnv} {o : KeysCmd} (h : Sealed C disk key P T s) (ht : o.list = true → ∀ p, KeyListing U V.date (keyFilter U V.now o.filter) p → T p) :
    Sealed C disk key P T (keysList U V o s).state := by
  unfold K431.keysList
  dsimp only
  split
  · rename_i hl
    split
    · exact h
    · split
      · exact h
      · exact h.also (ht hl _ (listingOf_blank U V.date V.now o.filter s.k))
  · exact h

theorem Sealed.messagesDelete {V : MsgsEnv} {o : MsgsCmd} (h : Sealed C disk key P T s) (hq : messagesDelete C E U V o s = some q) : Sealed C disk key P T q.state := by
  unfold K431.messagesDelete at hq
  dsimp only at hq
  repeat' split at hq
  all_goals first
    | exact (h.inst _).save hq
    | (simp only [Option.some.injEq] at hq; rw [← hq]; first | exact h | exact h.inst _)

theorem Sealed.messagesNew {V : MsgsEnv} {o : MsgsCmd} (h : Sealed C disk key P T s) (ht : o.new = true → ∀ m, T (.message m)) (hq : messagesNew C E U V o s = some q) :
    Sealed C disk key P T q.state := by
  unfold K431.messagesNew at hq
  repeat' split at hq
  · simp only [Option.some.injEq] at hq; rw [← hq]; exact h
  · cases hq
  · simp only [Option.some.injEq] at hq; rw [← hq]; exact h.inst _
  · simp only [Option.some.injEq] at hq; rw [← hq]; exact h.inst _
  ·
    have hm : ∀ m, Sealed C disk key P T { s with printed := s.printed ++ [.message m] } := by
      intro m
      refine ⟨h.opened, h.touched, h.traced, ?_⟩
      intro p hp
      rcases List.mem_append.1 hp with hp | hp
      · exact h.printed p hp
      · rw [List.mem_singleton.1 hp]; exact ht (by assumption) _
    exact ((hm _).inst _).save hq
  · simp only [Option.some.injEq] at hq; rw [← hq]; exact h

theorem Sealed.messagesList {V : MsgsEnv} {o : MsgsCmd} (h : Sealed C disk key P T s)
    (ht : o.list = true → ∀ p, MessageListing U V.fresh V.date V.digest (msgFilter U o.filter) p → T p) : Sealed C disk key P T (messagesList U V o s).state := by
  unfold K431.messagesList
  split
  · rename_i hl
    split
    · exact h
    · split
      · exact h
      · exact h
      · rename_i inst header lines hsum
        dsimp only
        split
        · exact h.inst _
        · exact (h.inst inst).also (ht hl _ ⟨s.k.inst, { s.k with inst := inst }, header, lines, hsum, rfl⟩)
  · exact h

end

/-- a command that writes once -/
structure Unwritten (disk : Disk) (T : Printed → Prop) (s : Cmd) : Prop where
  same : s.disk = disk
  touched : s.touched = []
  printed : ∀ p ∈ s.printed, T p

/-- after it has written -/
structure Written (C : Codec) (disk : Disk) (T : Printed → Prop) (s : Cmd) : Prop where
  touched : ∀ t ∈ s.touched, ∀ c ∈ t.contents, ∃ key, s.k.pfk = some key ∧ Encrypted C key c
  traced : Traced disk s
  printed : ∀ p ∈ s.printed, T p

theorem Unwritten.written {C : Codec} {disk : Disk} {T : Printed → Prop} {s : Cmd} (h : Unwritten disk T s) : Written C disk T s := ⟨by rw [h.touched]; simp, fun p => .inl (by rw [h.same]), h.printed⟩

theorem Unwritten.save {C : Codec} {E : PwEnv} {W : World} {disk : Disk} {T : Printed → Prop} {s : Cmd} (h : Unwritten disk T s) {q : Course} (hq : saveStep C E W s = some q) : Written C disk T q.state := by
  unfold saveStep at hq
  rcases hs : K431.save C E W s.disk s.k with _ | r
  · rw [hs] at hq; cases hq
  rw [hs] at hq
  simp only [Option.map_some, Option.some.injEq] at hq
  rw [← hq, check_state]
  have ht : Traced disk s := fun p => .inl (by rw [h.same])
  refine ⟨?_, ht.wrote (r.disk_traced _), h.printed⟩
  intro t ht
  simp only [Cmd.saved, h.touched, List.nil_append, List.mem_singleton] at ht
  rw [ht]
  exact (save_encrypted hs).1

theorem andThen_written {C : Codec} {disk : Disk} {T : Printed → Prop} {x : Option Course} {f : Cmd → Option Course} {r : Course} (h : andThen x f = some r) (h1 : ∀ q, x = some q → Unwritten disk T q.state)
    (h2 : ∀ s, Unwritten disk T s → ∀ q, f s = some q → Written C disk T q.state) : Written C disk T r.state := by
  rcases x with _ | s | ⟨o, s⟩
  · cases h
  · exact h2 s (h1 _ rfl) r h
  · simp only [andThen, Option.some.injEq] at h
    rw [← h]
    exact (h1 _ rfl).written

theorem Unwritten.unless {C : Codec} {V : PfkEnv} {disk : Disk} {T : Printed → Prop} {yes : Bool} {s : Cmd} {next : Cmd → Option Course} {q : Course} (h : Unwritten disk T s)
    (hn : ∀ q, next s = some q → Written C disk T q.state) (hq : unlessDeclined V yes s next = some q) : Written C disk T q.state := by
  unfold unlessDeclined at hq
  repeat' split at hq
  · exact hn q hq
  · simp only [Option.some.injEq] at hq; rw [← hq]; exact h.written
  · simp only [Option.some.injEq] at hq; rw [← hq]; exact h.written
  · exact hn q hq

theorem changeFileKey_written {C : Codec} {E : PwEnv} {V : PfkEnv} {o : PfkCmd} {disk : Disk} {T : Printed → Prop} {s : Cmd} {q : Course} (h : Unwritten disk T s)
    (ht : o.random = true → ∀ t, T (.text t)) (hq : changeFileKey C E V o s = some q) : Written C disk T q.state := by
  have hk : ∀ {s : Cmd} (_ : Unwritten disk T s) (k : Krypto), Unwritten disk T { s with k := k } := fun h _ => ⟨h.same, h.touched, h.printed⟩
  unfold changeFileKey at hq
  refine andThen_written hq (fun q' h' => check_Q (hk h _) h') ?_
  intro s h q hq
  dsimp only at hq
  split at hq
  · simp only [Option.some.injEq] at hq; rw [← hq]; exact h.written
  split at hq
  · simp only [Option.some.injEq] at hq; rw [← hq]; exact h.written
  split at hq
  · rename_i hr
    refine h.unless ?_ hq
    intro q hq
    split at hq
    · simp only [Option.some.injEq] at hq; rw [← hq]; exact h.written
    · simp only [Option.some.injEq] at hq; rw [← hq]; exact h.written
    · refine andThen_written hq (fun q' h' => check_Q (hk h _) h') ?_
      intro s h q hq
      have hm : ∀ t, Unwritten disk T { s with printed := s.printed ++ [.text t] } := by
        intro t
        refine ⟨h.same, h.touched, ?_⟩
        intro p hp
        rcases List.mem_append.1 hp with hp | hp
        · exact h.printed p hp
        · rw [List.mem_singleton.1 hp]; exact ht hr _
      exact (hm _).save hq
  split at hq
  · exact andThen_written hq (fun q' h' => check_Q (hk h _) h') (fun s h q hq => h.unless (fun q hq => h.save hq) hq)
  split at hq
  · exact andThen_written hq (fun q' h' => check_Q (hk h _) h') (fun s h q hq => h.unless (fun q hq => h.save hq) hq)
  split at hq
  · cases hq
  · exact andThen_written hq (fun q' h' => check_Q (hk h _) h') (fun s h q hq => h.save hq)

theorem generatePFK_written {C : Codec} {E : PwEnv} {V : PfkEnv} {o : PfkCmd} {disk : Disk} {T : Printed → Prop} {s : Cmd} {q : Course} (h : Unwritten disk T s) (ht : ∀ t, T (.text t))
    (hq : generatePFKCommand E V o s = some q) : Written C disk T q.state := by
  have hk : ∀ {s : Cmd} (_ : Unwritten disk T s) (k : Krypto), Unwritten disk T { s with k := k } := fun h _ => ⟨h.same, h.touched, h.printed⟩
  have hp : ∀ {s : Cmd} (_ : Unwritten disk T s) (t : List Nat), Unwritten disk T { s with printed := s.printed ++ [.text t] } := by
    intro s h t
    refine ⟨h.same, h.touched, ?_⟩
    intro p hp
    rcases List.mem_append.1 hp with hp | hp
    · exact h.printed p hp
    · rw [List.mem_singleton.1 hp]; exact ht _
  unfold generatePFKCommand at hq
  refine andThen_written hq (fun q' h' => check_Q (hk h _) h') ?_
  intro s h q hq
  refine andThen_written hq (fun q' h' => check_Q (hk h _) h') ?_
  intro s h q hq
  dsimp only at hq
  split at hq
  · split at hq
    · simp only [Option.some.injEq] at hq; rw [← hq]; exact (hp h _).written
    · simp only [Option.some.injEq] at hq; rw [← hq]; exact h.written
    · simp only [Option.some.injEq] at hq; rw [← hq]; exact h.written
  split at hq
  · refine andThen_written hq (fun q' h' => check_Q (hk h _) h') ?_
    intro s h q hq
    simp only [Option.some.injEq] at hq; rw [← hq]; exact (hp h _).written
  split at hq
  · cases hq
  · refine andThen_written hq (fun q' h' => check_Q (hk h _) h') ?_
    intro s h q hq
    simp only [Option.some.injEq] at hq; rw [← hq]; exact (hp h _).written

theorem initStore_written {C : Codec} {E : PwEnv} {U : Unicode} {V : InitEnv} {a : Access} {file : List Nat} {yes : Bool} {call : Runes} {keys : Int} {expire : Runes}
    {keepers : List Runes} {keyLength groupSize keyColumns columns : Int} {disk : Disk} {q : Course}
    (hq : initStore C E U V a file yes call keys expire keepers keyLength groupSize keyColumns columns disk = some q) : Written C disk (fun _ => False) q.state := by
  have hk : ∀ {s : Cmd} (_ : Unwritten disk (fun _ => False) s) (k : Krypto), Unwritten disk (fun _ => False) { s with k := k } := fun h _ => ⟨h.same, h.touched, h.printed⟩
  unfold initStore at hq
  refine andThen_written hq (fun q' h' => check_Q ⟨rfl, rfl, by simp⟩ h') ?_
  intro s h q hq
  refine andThen_written hq (fun q' h' => check_Q h h') ?_
  intro s h q hq
  dsimp only at hq
  split at hq
  · split at hq
    · cases hq
    · exact andThen_written hq (fun q' h' => check_Q (hk h _) h') (fun s h q hq => h.save hq)
  · exact h.save hq

theorem Written.leaves {C : Codec} {disk disk' : Disk} {T : Printed → Prop} {r : Course} (h : Written C disk T r.state) (hd : MayLeave disk r disk') (p : List Nat) :
    disk' p = disk p ∨ ∃ c key, disk' p = some c ∧ r.state.k.pfk = some key ∧ Encrypted C key c := by
  rcases h.traced.leaves hd p with h1 | ⟨t, ht, rfl, c, hc, e⟩
  · exact .inl h1
  · obtain ⟨key, h1, h2⟩ := h.touched t ht c hc
    exact .inr ⟨c, key, e, h1, h2⟩

theorem untouched_leaves {disk disk' : Disk} {r : Course} (h1 : r.state.disk = disk) (h2 : r.state.touched = []) (hd : MayLeave disk r disk') (p : List Nat) : disk' p = disk p := by
  rcases hd with rfl | hd
  · rw [h1]
  · rcases hd p with e | ⟨t, ht, -⟩
    · exact e
    · rw [h2] at ht; cases ht

end K431
