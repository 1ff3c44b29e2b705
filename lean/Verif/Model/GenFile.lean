import Verif.Model.Generator
/-
The generator on whole files: which declarations of a .proto file get a Go type (internal/generator/init.go:75-134 `newFileInfo`,
main.go:53-75 `GenerateFile`, 207-210 `genMessage`), and the oneof part of a message: wrapper types (main.go:461-495) and getters
(main.go:303-351). Extensions are collected by `newFileInfo` but nothing is generated for them; they are left out.
-/
namespace Pb

/-- protogen.Message as far as nesting goes: `id` stands for the descriptor, `enums` for the enums declared inside. -/
inductive MsgTree where
  | node (id : Nat) (isMapEntry : Bool) (enums : List Nat) (nested : List MsgTree)

namespace MsgTree

/-- protogen.Message.Desc. -/
def id : MsgTree → Nat
  | .node i _ _ _ => i
/-- protogen.Message.Desc.IsMapEntry. -/
def isMapEntry : MsgTree → Bool
  | .node _ e _ _ => e
/-- protogen.Message.Enums. -/
def enums : MsgTree → List Nat
  | .node _ _ es _ => es
/-- protogen.Message.Messages. -/
def nested : MsgTree → List MsgTree
  | .node _ _ _ ms => ms

end MsgTree

/-- protogen.File: its enums and messages. -/
structure ProtoFile where
  enums : List Nat
  messages : List MsgTree

mutual
/-- init.go:80-86 `walkMessages` on one message with an accumulator `s` threaded through `f`: `f(m)`, then the nested messages. -/
def walkMessage {σ : Type} (f : σ → MsgTree → σ) : σ → MsgTree → σ
  | s, .node i e es ms => walkMessages f (f s (.node i e es ms)) ms
/-- init.go:80-86 `walkMessages`. -/
def walkMessages {σ : Type} (f : σ → MsgTree → σ) : σ → List MsgTree → σ
  | s, [] => s
  | s, m :: ms => walkMessages f (walkMessage f s m) ms
end

/-- init.go:43-55 `fileInfo`: the fields in use. -/
structure FileInfo where
  allEnums : List Nat
  allMessages : List MsgTree

/-- init.go:87-91 `initEnumInfos`. -/
def FileInfo.initEnumInfos (f : FileInfo) (enums : List Nat) : FileInfo := { f with allEnums := f.allEnums ++ enums }
/-- init.go:92-96 `initMessageInfos`. -/
def FileInfo.initMessageInfos (f : FileInfo) (ms : List MsgTree) : FileInfo := { f with allMessages := f.allMessages ++ ms }

/-- init.go:75-111 `newFileInfo`. -/
def newFileInfo (file : ProtoFile) : FileInfo :=
  let f : FileInfo := ⟨[], []⟩
  let f := f.initEnumInfos file.enums
  let f := f.initMessageInfos file.messages
  walkMessages (fun f m => (f.initEnumInfos m.enums).initMessageInfos m.nested) f file.messages

/-- A Go type declaration in the generated file. -/
inductive GoDecl where
  /-- main.go:168-174: `type E = int32` and its constants -/
  | enum (id : Nat)
  /-- main.go:212-219: the struct of a message -/
  | message (id : Nat)
deriving DecidableEq, Repr

/-- main.go:207-224 `genMessage`: nothing for map entries. -/
def genMessageDecl (m : MsgTree) : List GoDecl := if m.isMapEntry then [] else [.message m.id]

/-- main.go:67-72 `GenerateFile`: the type declarations, in order. -/
def generateDecls (file : ProtoFile) : List GoDecl :=
  let f := newFileInfo file
  f.allEnums.map .enum ++ f.allMessages.flatMap genMessageDecl

/-! ### Oneofs -/

/-- The interface value held by a oneof field: nil, or a pointer to the wrapper struct of a member, which may be nil itself
(`(*M_A)(nil)` stored in the interface). -/
inductive OneofVal where
  | none
  | wrapper (member : Nat) (v : Val)
  | nilWrapper (member : Nat)

/-- A pointer to a message, as far as one of its oneofs goes: main.go:309-317, a getter accepts a nil receiver. -/
inductive Receiver where
  | nil
  | msg (oneof : OneofVal)

/-- main.go:309-317: the getter of the oneof itself. -/
def getOneof : Receiver → OneofVal
  | .nil => .none
  | .msg o => o

/-- main.go:433-457 `fieldDefaultValue`. `first` is the number of the first value of the enum. Members of oneofs are not
lists. -/
def getterDefault (first : U32) : Kind → Val
  | .bool => .b8 false
  | .string => .str []
  | .message _ | .group _ => .nilp
  | .bytes => .bytes none
  | .enum => .w32 first
  | .int32 | .sint32 | .uint32 | .sfixed32 | .fixed32 | .float => .w32 0#32
  | .int64 | .sint64 | .uint64 | .sfixed64 | .fixed64 | .double => .w64 0#64

/-- main.go:326-332: the getter of member `member` of a oneof. The type assertion succeeds for a nil pointer, and then the field
access panics. -/
def getMember (first : U32) (kind : Kind) (member : Nat) (x : Receiver) : Except Fault Val :=
  match getOneof x with
  | .wrapper m v => if m = member then .ok v else .ok (getterDefault first kind)
  | .nilWrapper m => if m = member then .error .panic else .ok (getterDefault first kind)
  | .none => .ok (getterDefault first kind)

end Pb
