import Verif.Model.Basic
/-
Model of src/petigaopts.c: the functions that read and complete PETSc's options database.

The database is a parameter of PETSc: a finite map from option names to texts.  Names are written without the leading dash, a prefix is put in front of the name
(`PetscOptionsHasName` with a prefix, `PetscOptionsPrefixPush` followed by `PetscOptionsSetValue`).  An option given without a value has the
empty text.  Simplifications: names are compared as they are (PETSc ignores case); the database never fails.
-/
namespace PetIGA.Opts

/-- PETSc's options database. -/
abbrev DB := String → Option String

/-- `PetscOptionsHasName(NULL,prefix,name,&flag)`. -/
def hasName (db : DB) (pre name : String) : Bool := (db (pre ++ name)).isSome

/-- `PetscOptionsPrefixPush`, `PetscOptionsSetValue(NULL,name,value)`, `PetscOptionsPrefixPop`. -/
def setValue (db : DB) (pre name value : String) : DB := fun k => if k = pre ++ name then some value else db k

/-- `PetscStrncpy(t,s,sizeof(t))` for `char t[1024]`, and what `PetscOptionsGetString` leaves in it. -/
def buf (s : String) : String := String.ofList (s.toList.take 1023)

/-- `IGAOptionsAlias`, petigaopts.c:3-25 (`prefix` is null there). -/
def setAlias (db : DB) (al : String) (defval : Option String) (name : String) : DB :=
  if hasName db "" al then
    setValue db "" name (match db al with | some v => buf v | none => "")
  else match defval with
    | some d => if hasName db "" name then db else setValue db "" name (buf d)
    | none => db

/-- `IGAOptionsDefault`, petigaopts.c:27-39. -/
def default (db : DB) (pre name value : String) : DB :=
  if hasName db pre name then db else setValue db pre name value

/-- `IGAOptionsReject`, petigaopts.c:41-49. -/
def reject (db : DB) (pre name : String) : Res Unit :=
  if hasName db pre name then .err .outOfRange else .ok ()

/-- `IGAGetOptEnum`, `IGAGetOptBool`, `IGAGetOptInt`, `IGAGetOptReal`, `IGAGetOptScalar`, petigaopts.c:51-56, 66-92: `parse` is PETSc's conversion of the
text; when it fails, `CHKERRABORT` ends the program (`err`). -/
def getOpt {α : Type} (parse : String → Option α) (db : DB) (pre name : String) (defval : α) : Res α :=
  match db (pre ++ name) with
  | some v => (match parse v with | some a => .ok a | none => .err .lib)
  | none => .ok defval

/-- `IGAGetOptString`, petigaopts.c:58-64: the new contents of the static buffer.  The result of the call is a pointer to that buffer. -/
def getOptString (db : DB) (pre name defval : String) (_buffer : String) : String :=
  let b := buf defval
  match db (pre ++ name) with
  | some v => buf v
  | none => b

/-- The calls of `IGAGetOptString` of a program: prefix, name and default of each. -/
abbrev Calls := List (String × String × String)

/-- The contents of the static buffer after the calls. -/
def bufferAfter (db : DB) (calls : Calls) : String := calls.foldl (fun b c => getOptString db c.1 c.2.1 c.2.2 b) ""

end PetIGA.Opts
