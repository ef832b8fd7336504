/-
The environment in which operations are written: the active script with its stack of defaults, the connection, and the
operation object.
Models /repo/src/fora/connection.py:55-240, /repo/src/fora/types.py:28-43 and 371-434, /repo/src/fora/operations/api.py:16-294.
What an operation prints is modelled as the list of summaries that `print_operation` was given (`St.shown`); their text is the
subject of Run/Report.lean. All other logging is omitted.
-/
import Verif.Script.Settings

namespace Verif.Script

open Client (Prog Completed StatResult UserEntry GroupEntry Connector.run)

/-! ### State dictionaries -/

/-- The values that operations put into their state dictionaries. (Python's `True == 1` is not modelled: no operation
compares a bool to an int.) -/
inductive Val where
  /-- `None` -/
  | null
  | bool (b : Bool)
  | int (i : Int)
  | str (s : Str)
  | bytes (b : Bytes)
  | list (l : List Str)
  | dict (d : List (Str × Val))
  deriving Repr

/-- A dictionary. Keys are unique: they are keyword arguments, or checked by `add_nested_result`. -/
abbrev Dict := List (Str × Val)

/-- `d[k]`; `none` is a KeyError. -/
def Dict.get (d : Dict) (k : Str) : Option Val :=
  match d with
  | [] => none
  | (k', v) :: r => if k' = k then some v else Dict.get r k

/-- `d.get(k) == v` with some comparison of values, where a missing key is not equal to anything. -/
def eqAt (eq : Val → Bool) (d : Dict) (k : Str) : Bool :=
  match d.get k with
  | none => false
  | some v => eq v

mutual
/-- `a == b`, api.py:138 and 142: values of different types differ; dictionaries are equal if they have the same keys with equal
values, regardless of the order. -/
def Val.eq : Val → Val → Bool
  | .null, .null => true
  | .bool a, .bool b => a == b
  | .int a, .int b => a == b
  | .str a, .str b => a == b
  | .bytes a, .bytes b => a == b
  | .list a, .list b => a == b
  | .dict a, .dict b => a.length == b.length && Dict.within a b
  | _, _ => false

/-- Every entry of the first dictionary has an equal value in the second one. -/
def Dict.within : List (Str × Val) → List (Str × Val) → Bool
  | [], _ => true
  | (k, v) :: r, b => eqAt (fun x => Val.eq v x) b k && Dict.within r b
end

/-- `a == b` for dictionaries. -/
def Dict.eq (a b : Dict) : Bool := a.length == b.length && Dict.within a b

/-- A value that is `None` or a string. -/
def Val.optStr : Option Str → Val
  | none => .null
  | some s => .str s

def Val.optInt : Option Int → Val
  | none => .null
  | some i => .int i

def Val.optBytes : Option Bytes → Val
  | none => .null
  | some b => .bytes b

def Val.optBool : Option Bool → Val
  | none => .null
  | some b => .bool b

/-! ### The state of the program and the operation monad -/

/-- `OperationResult`, api.py:19-31. -/
structure OpResult where
  success : Bool
  changed : Bool
  initial : Dict
  final : Dict
  failureMessage : Option Str := none

/-- The state of an `Operation`, api.py:39-46. Name and description are omitted. -/
structure OpState where
  hasNested : Bool := false
  initial : Option Dict := none
  final : Option Dict := none
  diffs : List (Str × Option Bytes × Option Bytes) := []

/-- What stays the same while a script runs: the connection's base settings and `fora.args`. (`changes` is unset by
--no-changes, main.py:233.) -/
structure Env where
  base : Settings
  dry : Bool := false
  diff : Bool := false
  changes : Bool := true

/-- What `print_operation` is given: the result, and the diffs of the operation object. -/
structure Report where
  result : OpResult
  diffs : List (Str × Option Bytes × Option Bytes)

/-- What changes: the stack of defaults of the active script (its last element comes first here), the operation that is
being executed, and the summaries that have been printed, the latest one at the end. -/
structure St where
  stack : List Settings
  op : OpState := {}
  shown : List Report := []

/-- Python code that runs in a script: it can read and change the state, send requests, and raise. -/
def Op (α : Type) := Env → St → Prog (Except Exn α × St)

namespace Op

def pure {α : Type} (a : α) : Op α := fun _ st => .ret (.ok a, st)

/-- `raise e` -/
def raise {α : Type} (e : Exn) : Op α := fun _ st => .ret (.error e, st)

/-- One statement after the other; an exception skips the rest. -/
def bind {α β : Type} (m : Op α) (f : α → Op β) : Op β := fun env st =>
  (m env st).bind fun
    | (.ok a, st') => f a env st'
    | (.error e, st') => .ret (.error e, st')

instance : Monad Op where
  pure := pure
  bind := bind

/-- A call of the connector. -/
def call {α : Type} (p : Prog (Except Exn α)) : Op α := fun _ st => p.bind fun r => .ret (r, st)

/-- A computation without effects that may raise. -/
def ofExcept {α : Type} : Except Exn α → Op α
  | .ok a => pure a
  | .error e => raise e

/-- `try: m except <those that handler accepts>: ...` -/
def tryCatch {α : Type} (m : Op α) (handler : Exn → Op α) : Op α := fun env st =>
  (m env st).bind fun
    | (.ok a, st') => .ret (.ok a, st')
    | (.error e, st') => handler e env st'

/-- `try: m finally: st = restore(st)` -/
def finally_ {α : Type} (m : Op α) (restore : St → St) : Op α := fun env st =>
  (m env st).bind fun (r, st') => .ret (r, restore st')

def getEnv : Op Env := fun env st => .ret (.ok env, st)
def getSt : Op St := fun _ st => .ret (.ok st, st)
def setSt (st : St) : Op Unit := fun _ _ => .ret (.ok (), st)

end Op

/-- `fora.args.dry` -/
def dry : Op Bool := fun env st => .ret (.ok env.dry, st)
/-- `fora.args.diff` -/
def diffWanted : Op Bool := fun env st => .ret (.ok env.diff, st)

/-! ### Connection and defaults -/

/-- `current_defaults`, types.py:425-434: `self._defaults_stack[-1]`. -/
def currentDefaults : Op Settings := fun _ st =>
  match st.stack with
  | [] => .ret (.error .indexError, st)
  | s :: _ => .ret (.ok s, st)

namespace Connection

/-- `run`, connection.py:103-123. -/
def run (command : List Str) (input : Option Bytes := none) (captureOutput : Bool := true) (check : Bool := true)
    (user group umask cwd : Option Str := none) : Op Completed := do
  let defaults ← currentDefaults
  Op.call (Client.Connector.run command input captureOutput check
    (pick defaults.asUser user) (pick defaults.asGroup group) (pick defaults.umask umask) (pick defaults.cwd cwd))

/-- `resolve_user`, connection.py:125-128. -/
def resolveUser (user : Option Str) : Op Str := Op.call (Client.Connector.resolveUser user)

/-- `resolve_group`, connection.py:130-133. -/
def resolveGroup (group : Option Str) : Op Str := Op.call (Client.Connector.resolveGroup group)

/-- `stat`, connection.py:135-141. -/
def stat (path : Str) (followLinks sha512sum : Bool := false) : Op (Option StatResult) :=
  Op.call (Client.Connector.stat path followLinks sha512sum)

/-- `upload`, connection.py:143-156. -/
def upload (file : Str) (content : Bytes) (mode owner group : Option Str := none) : Op Unit :=
  Op.call (Client.Connector.upload file content mode owner group)

/-- `download`, connection.py:158-161. -/
def download (file : Str) : Op Bytes := Op.call (Client.Connector.download file)

/-- `try: m except ValueError: return default` -/
def orDefault {α : Type} (m : Op (Option α)) (default : Option α) : Op (Option α) :=
  Op.tryCatch m fun e => if e.isValueError then Op.pure default else Op.raise e

/-- `download_or`, connection.py:163-189. -/
def downloadOr (file : Str) (default : Option Bytes := none) : Op (Option Bytes) :=
  orDefault (do let c ← download file; return some c) default

/-- `query_user`, connection.py:191-197. -/
def queryUser (user : Str) (queryPasswordHash : Bool := false) (default : Option UserEntry := none) : Op (Option UserEntry) :=
  orDefault (do let u ← Op.call (Client.Connector.queryUser user queryPasswordHash); return some u) default

/-- `query_group`, connection.py:199-205. -/
def queryGroup (group : Str) (default : Option GroupEntry := none) : Op (Option GroupEntry) :=
  orDefault (do let g ← Op.call (Client.Connector.queryGroup group); return some g) default

/-- `home_dir`, connection.py:207-234. -/
def homeDir (user : Option Str := none) : Op Str := do
  let u ← match user with
    | none => resolveUser none
    | some u => Op.pure u
  let e ← Op.call (Client.Connector.queryUser u)
  return e.home

/-- `getenv`, connection.py:236-240. -/
def getenv (key : Str) (default : Option Str := none) : Op (Option Str) := do
  let v ← Op.call (Client.Connector.getenv key)
  match v with
  | none => return default
  | some v => return some v

end Connection

/-- `None if x is None else f(x)` -/
def mapOpt (f : Option Str → Op Str) : Option Str → Op (Option Str)
  | none => Op.pure none
  | some x => do
    let y ← f (some x)
    return some y

/-- `check_mask`, connection.py:78-84. -/
def checkMask (mask : Option Str) (name : Str) : Except Exn Unit :=
  match mask with
  | none => .error (.valueError (p!"Error while resolving settings: " ++ name ++ p!" cannot be None!"))
  | some m =>
    match Py.parseInt 8 m with
    | none => .error (.valueError (p!"Error while resolving settings: " ++ name ++ p!" is '" ++ m ++ p!"' but must be octal!"))
    | some _ => .ok ()

/-- The check of the working directory, connection.py:93-98. `if settings.cwd` is also false for the empty string. -/
def checkCwd (cwd : Option Str) : Op Unit :=
  match cwd with
  | none => Op.pure ()
  | some [] => Op.pure ()
  | some c => do
    let s ← Connection.stat c
    match s with
    | none => Op.raise (.valueError (p!"The selected working directory '" ++ c ++ p!"' doesn't exist!"))
    | some s =>
      if s.type ≠ p!"dir" then
        Op.raise (.valueError (p!"The selected working directory '" ++ c ++ p!"' is not a directory!"))
      else Op.pure ()

/-- `resolve_defaults`, connection.py:55-101. A script is active in this model, so that the check at the beginning is
omitted. -/
def resolveDefaults (settings : Settings) : Op Settings := do
  let current ← currentDefaults
  let settings := current.overlay settings
  let asUser ← mapOpt Connection.resolveUser settings.asUser
  let asGroup ← mapOpt Connection.resolveGroup settings.asGroup
  let owner ← mapOpt Connection.resolveUser settings.owner
  let group ← mapOpt Connection.resolveGroup settings.group
  Op.ofExcept (checkMask settings.fileMode p!"file_mode")
  Op.ofExcept (checkMask settings.dirMode p!"dir_mode")
  Op.ofExcept (checkMask settings.umask p!"umask")
  checkCwd settings.cwd
  return { settings with asUser, asGroup, owner, group }

def push (s : Settings) : Op Unit := fun _ st => .ret (.ok (), { st with stack := s :: st.stack })

/-- `with script.defaults(...) as attr: body`: `defaults` (types.py:376-423), `RemoteDefaultsContext.__enter__` (:34-39) and
`__exit__` (:41-43). If entering fails, `__exit__` is not called. (The context is entered where it is created, as in every
use in fora.) -/
def withDefaults {α : Type} (requested : Settings) (body : Settings → Op α) : Op α := do
  let requested ← Op.ofExcept (canonicalize requested)
  let env ← Op.getEnv
  let current ← currentDefaults
  let resolved ← resolveDefaults ((env.base.overlay current).overlay requested)
  push resolved
  Op.finally_ (body (env.base.overlay resolved)) fun st => { st with stack := st.stack.tail }

/-- `_resolve_identity`, connection.py:42-53: the new base settings. -/
def resolveIdentity (base : Settings) : Op Settings := do
  let user ← Connection.resolveUser none
  let group ← Connection.resolveGroup none
  return { base with asUser := some user, asGroup := some group, owner := some user, group := some group }

/-! ### The operation object -/

def OperationError (msg : Str) : Exn := .operationError msg

def nestedMsg : Str := p!"An operation that nests other operations cannot have state on its own."

/-- `nested`, api.py:48-59. -/
def setNested (b : Bool) : Op Unit := fun _ st => .ret (.ok (), { st with op := { st.op with hasNested := b } })

/-- `initial_state`, api.py:104-110. -/
def initialState (d : Dict) : Op Unit := fun _ st =>
  if st.op.hasNested then .ret (.error (.operationError nestedMsg), st)
  else match st.op.initial with
    | some _ => .ret (.error (.operationError p!"An operation's 'initial_state' can only be set once."), st)
    | none => .ret (.ok (), { st with op := { st.op with initial := some d } })

/-- `final_state`, api.py:112-118. -/
def finalState (d : Dict) : Op Unit := fun _ st =>
  if st.op.hasNested then .ret (.error (.operationError nestedMsg), st)
  else match st.op.final with
    | some _ => .ret (.error (.operationError p!"An operation's 'final_state' can only be set once."), st)
    | none => .ret (.ok (), { st with op := { st.op with final := some d } })

/-- The loop of `unchanged(ignore_none=True)`, api.py:140-144, over the keys of the final state. The condition
`k is not None` holds for every key. A key that is missing in the initial state is a KeyError. -/
def unchangedLoop (initial final : Dict) : List Str → Except Exn Bool
  | [] => .ok true
  | k :: ks =>
    match initial.get k, final.get k with
    | some a, some b => if a.eq b then unchangedLoop initial final ks else .ok false
    | _, _ => .error .keyError

/-- `unchanged`, api.py:120-144. -/
def unchanged (ignoreNone : Bool := false) : Op Bool := fun _ st =>
  match st.op.initial, st.op.final with
  | some i, some f =>
    if !ignoreNone then .ret (.ok (i.eq f), st)
    else .ret (unchangedLoop i f (f.map (·.1)), st)
  | _, _ => .ret (.error (.operationError p!"Both initial and final state must have been set before 'unchanged()' may be called."), st)

/-- `changed`, api.py:147-165. -/
def changed (key : Str) : Op Bool := fun _ st =>
  if st.op.hasNested then .ret (.error (.operationError nestedMsg), st)
  else match st.op.initial, st.op.final with
    | some i, some f =>
      match i.get key, f.get key with
      | some a, some b => .ret (.ok (!a.eq b), st)
      | _, _ => .ret (.error .keyError, st)
    | _, _ => .ret (.error (.operationError p!"Both initial and final state must have been set before 'changed()' may be called."), st)

/-- `diff`, api.py:167-184. -/
def opDiff (file : Str) (old new : Option Bytes) : Op Unit := fun _ st =>
  if st.op.hasNested then .ret (.error (.operationError nestedMsg), st)
  else if old = new then .ret (.ok (), st)
  else .ret (.ok (), { st with op := { st.op with diffs := st.op.diffs ++ [(file, old, new)] } })

/-- `if not self.has_nested: logger.print_operation(self, result)`, api.py:200-201 and 219-220. -/
def St.show (st : St) (result : OpResult) : St :=
  if st.op.hasNested then st else { st with shown := st.shown ++ [{ result, diffs := st.op.diffs }] }

/-- The result of `failure`, api.py:195-199. -/
def failed (st : St) (msg : Option Str) : OpResult :=
  { success := false, changed := false, initial := st.op.initial.getD [], final := st.op.final.getD [], failureMessage := msg }

/-- `failure`, api.py:186-202. -/
def failure (msg : Str) : Op OpResult := fun _ st => .ret (.ok (failed st (some msg)), st.show (failed st (some msg)))

/-- `v is None` -/
def Val.isNull : Val → Bool
  | .null => true
  | _ => false

/-- `_operation_state_infos` finds an initial value for all that it looks up (`result.initial[k]`), logger.py:244-248. -/
def printable (i f : Dict) : Bool := f.all fun (k, v) => (i.get k).isSome || v.isNull

/-- `success`, api.py:204-221. Printing the changes of an operation that is not nested is a KeyError if a key is missing from
the initial state (logger.py:293-300, after the title has been printed). -/
def success : Op OpResult := fun env st =>
  match st.op.initial, st.op.final with
  | some i, some f =>
    let r : OpResult := { success := true, changed := !i.eq f, initial := i, final := f }
    if env.changes && !st.op.hasNested && !printable i f then .ret (.error .keyError, st)
    else .ret (.ok r, st.show r)
  | _, _ => .ret (.error (.operationError p!"Both initial and final state must have been set before 'success()' may be called."), st)

/-- `add_nested_result`, api.py:61-82. -/
def addNestedResult (key : Str) (result : OpResult) : Op Unit := fun _ st =>
  if !st.op.hasNested then
    .ret (.error (.operationError p!"An operation can only accumulate nested results if it is marked as nested."), st)
  else
    let i := st.op.initial.getD []
    let f := st.op.final.getD []
    if (i.get key).isSome || (f.get key).isSome then
      .ret (.error (.operationError (p!"Cannot add nested operation result under existing key '" ++ key ++ p!"'.")),
        { st with op := { st.op with initial := some i, final := some f } })
    else
      .ret (.ok (), { st with op := { st.op with initial := some (i ++ [(key, .dict result.initial)]),
                                                 final := some (f ++ [(key, .dict result.final)]) } })

/-- The message of a failed result as an exception: `OperationError(ret.failure_message)`. -/
def failureError (r : OpResult) : Exn := .operationError (r.failureMessage.getD p!"None")

/-- `str(e)`; the text of exceptions other than OperationError is omitted. -/
def errorText : Exn → Option Str
  | .operationError m => some m
  | _ => none

/-- The decorator `operation`, api.py:227-294: a new operation object for the call (the caller's own, if there is one, is
another object and stays as it is), exceptions of the function are shown as a failure and raised again, a failed result is
turned into an exception if `check` is set. `none` is a function that returned None. A host is active in this model, so that
`check_host_active` is omitted. -/
def operation (check : Bool) (function : Op (Option OpResult)) : Op OpResult := fun env st =>
  (function env { st with op := {} }).bind fun
    | (.error e, st') => .ret (.error e, { st'.show (failed st' (errorText e)) with op := st.op })
    | (.ok none, st') => .ret (.error (.operationError p!"The operation failed to return a status."), { st' with op := st.op })
    | (.ok (some r), st') =>
      if check && !r.success then .ret (.error (failureError r), { st' with op := st.op })
      else .ret (.ok r, { st' with op := st.op })

end Verif.Script
