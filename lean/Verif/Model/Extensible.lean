import Verif.Model.Basic
/-!
# Extensions: adding, importing and binding them (laurelin/ldap/extensible/base.py)

A module is identified by its name (importing a name again gives the same module object). What importing a module gives and what its classes do
is the parameter `World`. `imports` and `setups` are ghosts: the `import_module` calls made and the one-time setups run.
-/
namespace Laurelin
namespace Ext

/-- the class `LaurelinExtension` of a module, base.py:77-92: whether it subclasses `BaseLaurelinExtension`, its `NAME`, and what its constructor
and `require()` do -/
structure ExtCls where
  subclass : Bool
  name : Str
  setup : Except Err Unit
  deriving DecidableEq

/-- a class `LaurelinLDAPExtension` / `LaurelinLDAPObjectExtension`: whether it subclasses the right base, and what its constructor does -/
structure BindCls where
  subclass : Bool
  ctor : Except Err Unit
  deriving DecidableEq

structure ModDesc where
  ext : Option ExtCls
  ldapCls : Option BindCls
  objCls : Option BindCls
  deriving DecidableEq

/-- `import_module` -/
inductive Imp where
  | ok (d : ModDesc)
  | importError
  | other (e : Err)
  deriving DecidableEq

abbrev World := Str → Imp

/-- base.py:102-123: module and pip package of the predefined extensions -/
structure Info where
  mod : Str
  pip : Option Str
  deriving DecidableEq

abbrev Avail := PDict Str Info

/-- base.py:102-123 -/
def available : Avail :=
  [(str "base_schema", ⟨str "laurelin.extensions.base_schema", none⟩), (str "descattrs", ⟨str "laurelin.extensions.descattrs", none⟩),
   (str "netgroups", ⟨str "laurelin.extensions.netgroups", none⟩), (str "paged_results", ⟨str "laurelin.extensions.pagedresults", none⟩)]

/-- The process: modules whose setup is complete (the flag on the module, base.py:72,95), `ADDITIONAL_EXTENSIONS` (base.py:125), the number of
instances made. -/
structure G where
  complete : List Str := []
  additional : PDict Str Str := []
  count : Nat := 0
  imports : List Str := []
  setups : List Str := []
  deriving DecidableEq

/-- outcome of importing: `ImportError` is told apart because callers catch it -/
inductive Got where
  | mod (d : ModDesc)
  | importError
  | err (e : Err)
  deriving DecidableEq

abbrev undefinedName : Str := str "__undefined__"

/-- `_import_extension`, base.py:69-96 -/
def importExtension (w : World) (g : G) (m : Str) : Got × G :=
  let g := { g with imports := g.imports ++ [m] }
  match w m with
  | .importError => (.importError, g)
  | .other e => (.err e, g)
  | .ok d =>
    if m ∈ g.complete then (.mod d, g)
    else
      match d.ext with
      | none => (.err .extension, g)
      | some c =>
        if c.subclass = false then (.err .extension, g)
        else if c.name = undefinedName then (.err .extension, g)
        else
          let g := { g with setups := g.setups ++ [m] }
          match c.setup with
          | .ok () => (.mod d, { g with complete := g.complete ++ [m] })
          | .error .attributeError => (.err .extension, g)
          | .error e => (.err e, g)

/-- exception of `add_extension`; `none`: `ImportError` -/
inductive AddErr where
  | importError
  | err (e : Err)
  deriving DecidableEq

/-- `add_extension`, base.py:17-66. `getattr(mod, EXTENSION_CLSNAME)` on a complete module succeeds. -/
def addExtension (w : World) (avail : Avail) (g : G) (m : Str) : Except AddErr Unit × G :=
  match importExtension w g m with
  | (.importError, g) => (.error .importError, g)
  | (.err e, g) => (.error (.err e), g)
  | (.mod d, g) =>
    match d.ext with
    | none => (.error (.err .attributeError), g)
    | some c =>
      match g.additional.get? c.name with
      | some m' => if m' ≠ m then (.error (.err .extension), g) else (.ok (), g)
      | none =>
        match avail.get? c.name with
        | some info => if info.mod ≠ m then (.error (.err .extension), g) else (.ok (), g)
        | none => (.ok (), { g with additional := g.additional.set c.name m })

/-- the three extensible things: `LDAP`, `LDAPObject` and the global `extensions` -/
inductive Kind where
  | ldap
  | object
  | global
  deriving DecidableEq, Repr

/-- an extension instance: of which module, and which object -/
structure Inst where
  mod : Str
  id : Nat
  deriving DecidableEq

/-- base.py:127-129 -/
structure Owner where
  kind : Kind
  builtInOnly : Bool
  instances : PDict Str Inst := []
  deriving DecidableEq

/-- `ExtensibleClass._create_extension_instance`, base.py:193-210; `c` is the class of the module for this kind of owner -/
def bindInstance (g : G) (o : Owner) (name m : Str) : Option BindCls → Except Err Inst × G × Owner
  | none => (.error .extension, g, o)
  | some c =>
    if c.subclass = false then (.error .extension, g, o)
    else
      match c.ctor with
      | .error e => (.error e, g, o)
      | .ok () => (.ok ⟨m, g.count + 1⟩, { g with count := g.count + 1 }, { o with instances := o.instances.set name ⟨m, g.count + 1⟩ })

/-- `_create_extension_instance`, base.py:193-217. The global object shares the one instance per module (numbered 0). -/
def createInstance (g : G) (o : Owner) (name m : Str) (d : ModDesc) : Except Err Inst × G × Owner :=
  match o.kind with
  | .ldap => bindInstance g o name m d.ldapCls
  | .object => bindInstance g o name m d.objCls
  | .global => (.ok ⟨m, 0⟩, g, { o with instances := o.instances.set name ⟨m, 0⟩ })

/-- `_get_extension_instance`, base.py:131-151 -/
def getPredefined (w : World) (avail : Avail) (g : G) (o : Owner) (name : Str) : Except Err Inst × G × Owner :=
  match avail.get? name with
  | none => (.error .keyError, g, o)
  | some info =>
    if o.builtInOnly = true ∧ info.pip ≠ none then (.error .runtimeError, g, o)
    else
      match o.instances.get? name with
      | some i => (.ok i, g, o)
      | none =>
        match importExtension w g info.mod with
        | (.importError, g) => (.error .extension, g, o)
        | (.err e, g) => (.error e, g, o)
        | (.mod d, g) => createInstance g o name info.mod d

/-- `__getattr__`, base.py:156-170. The modules in `ADDITIONAL_EXTENSIONS` have been imported. -/
def getDynamic (w : World) (g : G) (o : Owner) (name : Str) : Except Err Inst × G × Owner :=
  match o.instances.get? name with
  | some i => (.ok i, g, o)
  | none =>
    match g.additional.get? name with
    | none => (.error .attributeError, g, o)
    | some m =>
      if o.builtInOnly = true then (.error .runtimeError, g, o)
      else
        match w m with
        | .ok d => createInstance g o name m d
        | _ => (.error .attributeError, g, o)

/-- laurelin_extensions.py, ldap_extensions.py, ldapobject_extensions.py: the generated properties -/
def props : Kind → List Str
  | .ldap => [str "netgroups"]
  | .object => [str "descattrs", str "netgroups"]
  | .global => [str "base_schema", str "descattrs", str "netgroups", str "paged_results"]

/-- Reading the attribute `name`: the property if there is one; Python falls back to `__getattr__` when it raises AttributeError. -/
def access (w : World) (avail : Avail) (props : Kind → List Str) (g : G) (o : Owner) (name : Str) : Except Err Inst × G × Owner :=
  if name ∈ props o.kind then
    match getPredefined w avail g o name with
    | (.error .attributeError, g, o) => getDynamic w g o name
    | r => r
  else getDynamic w g o name

/-- ldapobject.py:50-59: an object made by a connection inherits its setting; base.py:291: a connection has the one it was given -/
def newObject (conn : Option Owner) : Owner :=
  ⟨.object, match conn with | some c => c.builtInOnly | none => false, []⟩

end Ext
end Laurelin
