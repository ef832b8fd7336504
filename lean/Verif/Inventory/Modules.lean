/-
Where the modules of an inventory are: inventory_wrapper.py:223-240, 265-297, and the lookup in 597-598 and 651-652.
-/
import Verif.Inventory.Load
import Verif.Ops.Utils

namespace Verif.Inventory

/-- The directories of an inventory with a module file. -/
structure Layout where
  /-- `base_dir()`, inventory_wrapper.py:223-240: the absolute path, without symbolic links, of the directory of the inventory's file
  (utils.py:141) -/
  base : Str
  /-- The attribute `groups_dir`: the variable of the inventory, otherwise the default, inventory_wrapper.py:113 -/
  groupsDir : Str := p!"groups"
  /-- The attribute `hosts_dir`, inventory_wrapper.py:116 -/
  hostsDir : Str := p!"hosts"

/-- `group_module_file`, inventory_wrapper.py:265-280 -/
def Layout.groupModuleFile (l : Layout) (name : Str) : Str := Ops.pathJoin (Ops.pathJoin l.base l.groupsDir) (name ++ p!".py")

/-- `host_module_file`, inventory_wrapper.py:282-297 -/
def Layout.hostModuleFile (l : Layout) (name : Str) : Str := Ops.pathJoin (Ops.pathJoin l.base l.hostsDir) (name ++ p!".py")

/-- What is loaded for the modules of hosts and groups, if the files of this machine are `files`; inventory_wrapper.py:597-598,
621 and 651-652, 669. Simplification: `files` knows a file by the path that is used for it. -/
def Layout.sources (l : Layout) (files : Str → Option Body) (inventory : Wrapper) : Sources where
  groupFile g := files (l.groupModuleFile g)
  hostFile h := files (l.hostModuleFile h)
  file f := files (Ops.pathJoin l.base f)
  inventory

end Verif.Inventory
