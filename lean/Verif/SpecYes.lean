import Verif.Cli

/-!
# Other answers
-/

namespace K431.Spec

/-- the same file system, terminal and passwords; the question whether to overwrite is answered by `c` -/
def otherWorld (c : Option Bool) (W : World) : World := { W with confirm := c }

/-- What may be answered: which lines are ticked, whether a key is to be replaced, whether a file is to be overwritten (here and in `c`: `none` if the prompt fails). -/
structure Answers where
  choose : List Runes → Option (List Runes)
  replace : Key → Option Bool
  overwrite : Option Bool

/-- `keys` meets the same, but the questions are answered otherwise -/
def keysAnswered (a : Answers) (V : KeysEnv) : KeysEnv :=
  { V with
    choose := a.choose
    answer := a.replace
    loadW := otherWorld a.overwrite V.loadW
    deleteW := otherWorld a.overwrite V.deleteW
    newW := otherWorld a.overwrite V.newW
    readW := otherWorld a.overwrite V.readW
    importW := otherWorld a.overwrite V.importW
    exportW := otherWorld a.overwrite V.exportW }

@[inherit_doc keysAnswered]
def messagesAnswered (a : Answers) (V : MsgsEnv) : MsgsEnv :=
  { V with
    choose := a.choose
    loadW := otherWorld a.overwrite V.loadW
    deleteW := otherWorld a.overwrite V.deleteW
    newW := otherWorld a.overwrite V.newW }

@[inherit_doc keysAnswered]
def pfkAnswered (a : Answers) (V : PfkEnv) : PfkEnv :=
  { V with
    confirm := a.overwrite
    loadW := otherWorld a.overwrite V.loadW
    saveW := otherWorld a.overwrite V.saveW }

/-- `initialize` meets the same, but its questions are answered by `call` and `more` -/
def initAnswered (a : Answers) (call : Runes) (more : Option InitAnswers) (V : InitEnv) : InitEnv :=
  { V with
    call := call
    answers := more
    saveW := otherWorld a.overwrite V.saveW }

end K431.Spec
