/-
Setting up whole sites on the hosts of an inventory: what is assumed of the hosts.
-/
import Verif.Run.ProgramSpec
import Verif.Ops.SiteSpec

namespace Verif.Program

open Script Remote Ops

/-- What the script calls for a host, and what is known of that host once and for all. `b` are the settings of the connection. As for a
single script (C94); in addition, no command that the calls may run takes away the account that is logged in with. -/
structure Plan (opts : Env) (tools : Tools) (t : Target) (U : UnitStates) (items : List Item) (b : Settings) : Prop where
  script : t.script = items.map (Item.op t.sys.sha512)
  proper : ∀ i ∈ items, i.Proper t.sys U
  compatible : Compatible t.sys tools { opts with base := b } (start b) U items
  login : ∀ i ∈ items, ∀ p w out err code w', i.Runs p.argv → t.sys.exec p w = (.done out err code, w') →
    Orderly t.sys tools { opts with base := b } (start b) U items w → Identity t.base w b → Identity t.base w' b
  modes : PlainModes { opts with base := b } (start b)
  canonical : CanonicalModes { opts with base := b } (start b)
  octal : OctalDirModes { opts with base := b } (start b) (siteTasks t.sys.sha512 items)

/-- The host is one on which the script can be run, and the connection has those settings there. -/
structure Manageable (opts : Env) (tools : Tools) (t : Target) (U : UnitStates) (items : List Item) (b : Settings) (w : World) : Prop where
  orderly : Orderly t.sys tools { opts with base := b } (start b) U items w
  identity : Identity t.base w b

/-- The host is as all calls ask for. -/
def SetUp (opts : Env) (t : Target) (U : UnitStates) (items : List Item) (b : Settings) (w : World) : Prop :=
  ∀ i ∈ items, i.Done t.sys { opts with base := b } (start b) U w

end Verif.Program
