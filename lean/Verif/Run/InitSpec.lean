/-
What a user expects of `fora --init`.
-/
import Verif.Run.Init

namespace Verif.Run.Init

/-- The user answers "y" or "yes", in upper or lower case. -/
def Consent (answer : Except Exn Str) : Prop :=
  ∃ r, answer = .ok r ∧ (r = p!"y" ∨ r = p!"Y" ∨ ∃ a b c, r = [a, b, c] ∧ (a = 121 ∨ a = 89) ∧ (b = 101 ∨ b = 69) ∧ (c = 115 ∨ c = 83))

/-- Everything that exists is in a directory. -/
def Sound (d : Disk) : Prop := ∀ p, d.get p ≠ none → d.get p.dropLast = some .dir

/-- There is nothing. -/
def Empty (d : Disk) : Prop := ∀ p, p ≠ [] → d.get p = none

/-- Nothing was removed, and directories and files are still directories and files. -/
def Keeps (d d' : Disk) : Prop :=
  ∀ p, (d.get p = some .dir → d'.get p = some .dir) ∧ (d.get p = some .blocked → d'.get p = some .blocked)
    ∧ ∀ c, d.get p = some (.file c) → ∃ c', d'.get p = some (.file c')

/-- Where the layout wants to have a directory there is one or nothing, and where it wants to have a file there is one or nothing. -/
def NoConflict (l : Layout) (d : Disk) : Prop :=
  (∀ p ∈ l.dirs, d.get p = none ∨ d.get p = some .dir) ∧ ∀ p ∈ l.files, d.get p = none ∨ ∃ c, d.get p = some (.file c)

/-- The layout is there. -/
def Created (l : Layout) (content : Path → Str) (d : Disk) : Prop :=
  (∀ p ∈ l.dirs, d.get p = some .dir) ∧ ∀ p ∈ l.files, d.get p = some (.file (content p))

/-- The inventories of the layouts as the help and the documentation name them: what to pass to fora before `deploy.py`. The layout for
dotfiles has none: it is meant for hosts given on the command line. -/
def inventories (name : Str) : List Path :=
  if name = p!"dotfiles" then []
  else if name = p!"staging_prod" then [[p!"inventories", p!"staging.py"], [p!"inventories", p!"prod.py"]]
  else [[p!"inventory.py"]]

end Verif.Run.Init
