import Verif.Route.Model
set_option autoImplicit false
/-!
What is meant by the handler of a command, a lookup or an update. Nothing here mentions the tables.
-/
namespace Verif.Route

/-- `x` is what the last element of `h` for which `f` gives something gave. -/
def Latest {X : Type} (f : Act → Option X) (h : List Act) (x : X) : Prop :=
  ∃ pre a post, h = pre ++ a :: post ∧ f a = some x ∧ ∀ b ∈ post, f b = none

/-- The command handler this act registers for a name. -/
def forCommand (name : String) : Act → Option CmdHandler
  | .reg (.commands h ns) => if name ∈ ns then some h else none
  | .reg (.command h n) => if name = n then some h else none
  | _ => none

/-- The default command handler this act sets. -/
def forCmdDefault : Act → Option CmdHandler
  | .reg (.cmdDefault h) => some h
  | _ => none

/-- The lookup handler this act registers for a name. -/
def forLookup (name : String) : Act → Option LkHandler
  | .reg (.lookups h ns) => if name ∈ ns then some h else none
  | .reg (.lookup h n) => if name = n then some h else none
  | _ => none

/-- The default lookup handler this act sets. -/
def forLkDefault : Act → Option LkHandler
  | .reg (.lkDefault h) => some h
  | _ => none

/-- The update handler this act sets. -/
def forUpdate : Act → Option (Option Nat)
  | .reg (.update n) => some n
  | _ => none

/-- After the history, `H` is responsible for `name`: registered last for it; if none was, the last default; if none was set, the built-in one. -/
def CmdFor (h : List Act) (name : String) (H : CmdHandler) : Prop :=
  Latest (forCommand name) h H ∨
  (∀ a ∈ h, forCommand name a = none) ∧ (Latest forCmdDefault h H ∨ (∀ a ∈ h, forCmdDefault a = none) ∧ H = .builtin)

/-- The same for lookups. -/
def LkFor (h : List Act) (name : String) (H : LkHandler) : Prop :=
  Latest (forLookup name) h H ∨
  (∀ a ∈ h, forLookup name a = none) ∧ (Latest forLkDefault h H ∨ (∀ a ∈ h, forLkDefault a = none) ∧ H = .builtin)

/-- The same for updates. -/
def UpdFor (h : List Act) (H : Option Nat) : Prop :=
  Latest forUpdate h H ∨ (∀ a ∈ h, forUpdate a = none) ∧ H = none

/-- The user code of a command handler for executing, if any. -/
def CmdHandler.execCode : CmdHandler → Option Nat
  | .object n => some n
  | .functions e _ => e
  | .builtin => none

/-- The user code of a command handler for aborting, if any. -/
def CmdHandler.abortCode : CmdHandler → Option Nat
  | .object n => some n
  | .functions _ a => a
  | .builtin => none

/-- The user code of a lookup handler, if any: for lookups, real and integer thresholds, clearing. -/
def LkHandler.code : LkHandler → Req → Option Nat
  | .object n, _ => some n
  | .functions f _ _ _, .lookup _ => f
  | .functions _ f _ _, .thresholdsReal _ => f
  | .functions _ _ f _, .thresholdsInt _ => f
  | .functions _ _ _ f, .clear _ => f
  | .functions _ _ _ _, _ => none
  | .builtin, _ => none

/-- The user code responsible, after the history, for a request; `none`: there is none. -/
def Responsible (h : List Act) : Req → Option Nat → Prop
  | .execute c, n => ∃ H, CmdFor h c.name H ∧ n = H.execCode
  | .abort c, n => ∃ H, CmdFor h c.name H ∧ n = H.abortCode
  | .denied _, n => n = none
  | .update _, n => UpdFor h n
  | .lookup s, n => ∃ H, LkFor h s H ∧ n = H.code (.lookup s)
  | .thresholdsReal s, n => ∃ H, LkFor h s H ∧ n = H.code (.thresholdsReal s)
  | .thresholdsInt s, n => ∃ H, LkFor h s H ∧ n = H.code (.thresholdsInt s)
  | .clear s, n => ∃ H, LkFor h s H ∧ n = H.code (.clear s)

/-- The calls of user code among the events. -/
def callsOf (es : List Event) : List (Nat × Req) :=
  es.filterMap (fun e => match e with | .call n r _ => some (n, r) | _ => none)

/-- What happens for one request after a history. -/
def outcome (code : Code) (h : List Act) (r : Req) : List Event := (run code h).tables.dispatch code (run code h).log r

end Verif.Route
