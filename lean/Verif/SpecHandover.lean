import Verif.SpecPersist
import Verif.SpecImport

/-!
# Vocabulary for handing keys over by export and import
-/

namespace K431
open Spec

/-- What a handed-over key `k` of station `call` has become at the other station. -/
structure HandedOver (U : Unicode) (call : Runes) (e k' : Key) : Prop where
  id : k'.id.val = e.id.val
  runes : k'.runes = e.runes
  used : k'.used = e.used
  expires : k'.expires = e.expires
  compromised : k'.compromised = e.compromised
  names : ∀ n ∈ k'.names, n ∈ e.names ∨ n = call
  exporter : InFold U call k'.names

/-- The situation of C40: station A exports to a file the keys selected by `fA` and saves the file with its key; station B, with the same group size and none of these
ids in use, imports the file with the same key. -/
structure Handover (C : Codec) (U : Unicode) (A B : Krypto) (fA : Key → Bool) (E1 : PwEnv) (W1 : World) (disk : Disk) (file : List Nat) (ow : Bool) (r : SaveRun)
    (E2 : PwEnv) (W2 : World) (opts : List Opt) : Prop where
  key : ∃ key, A.pfk = some key ∧ key.length = 32 ∧ LoadsWith E2 W2 (newIncoming U B opts).k key
  saved : save C E1 W1 disk (exportKeys fA [withPersistence file, withOverwrite ow] A) = some r
  ok : r.outcome = .ok ()
  written : r.contents ≠ []
  room : W1.room = none
  sizes : A.inst.groupSize ≠ 0 ∧ A.inst.keyLength ≠ 0 ∧ A.inst.columns ≠ 0 ∧ A.inst.keyColumns ≠ 0
  blank : Blank (newIncoming U B opts).k
  reads : Reads W2 (newIncoming U B opts).k r.k.persistence
  distinct : DistinctNames U (A.inst.keys.map (fun k => k.id.val))
  lengths : ∀ k ∈ A.inst.keys, k.id.val.length = B.inst.groupSize
  store : StoreOk U B.inst
  arrays : ∀ x ∈ B.inst.keys, ∀ s ∈ x.keepers, s.addr < B.inst.nextAddr
  new : ∀ k ∈ A.inst.keys, fA k = true → ¬ InFold U k.id.val (B.inst.keys.map (fun k => k.id.val))

end K431
