/-
The names that fora itself defines for hosts, groups, scripts and inventories, and that are therefore not variables of the user.
-/
import Verif.Py.Str

namespace Verif.Inventory

/-- What every module of an inventory, every host and every script has. -/
def moduleNames : List Str :=
  [p!"module", p!"wrap", p!"definition_file", p!"exported_variables", p!"is_exported_variable", p!"is_overloaded", p!"is_overridden"]

/-- The functions of a host. -/
def hostFunctions : List Str := [p!"create_connector", p!"vars_hierarchical"]

/-- What a host has. -/
def hostNames : List Str := [p!"name", p!"url", p!"inventory", p!"groups", p!"connector", p!"connection"] ++ hostFunctions

/-- What a script has. -/
def scriptNames : List Str := [p!"name", p!"Params", p!"defaults", p!"current_defaults"]

/-- What an inventory has. -/
def inventoryNames : List Str :=
  [p!"hosts", p!"groups", p!"hosts_dir", p!"groups_dir", p!"loaded_hosts", p!"load", p!"load_host", p!"load_group", p!"instanciate_host",
    p!"is_initialized", p!"available_groups", p!"base_dir", p!"base_remote_settings", p!"host_module_file", p!"group_module_file", p!"qualify_url",
    p!"extract_hostname"]

end Verif.Inventory
