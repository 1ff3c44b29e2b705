import Verif.Proofs.GoRun
import Verif.Props.GenFile
import Verif.Props.GenText
/-
C72: running the getters in the generated text.
-/
namespace Pb.Props
open Spec

/-- C72. The method `GetF` in the generated text, run as Go on any pointer to a message, yields the value of the member `F` of a oneof
if it is set and its default else. Missing: a nil pointer to the wrapper struct of the member, see below, and enums from packages named
`x` (in `GetterScope`). -/
theorem C72_getter_partial {N : TextNames} (hN : TextNamesOK N) {f : TextFile} (hf : TextFileOK f) {P : Pkg}
    (hP : parseFile (fileText N f) = some (f.pkg, P.decls)) (hD : NoDuplicates P.decls) (hS : ScopeOK P.scope) {m : TextMessage}
    (hm : m ∈ f.messages) (hM : MessageScope P.scope N m) {i j : Nat} {o : TextOneof} (ho : m.oneofs[i]? = some o) {g : TextField}
    (hj : o.members[j]? = some g) (hg : g ∈ m.fields) (hl : g.field.label = .oneof i) (hG : GetterScope P g) {x : Receiver} {r : GVal}
    (hr : ReceiverIs P m o x r) (hx : x ≠ .msg (.nilWrapper j)) (d : Nat) (v : Val) :
    OneofGet (BitVec.ofInt 32 g.enumNumber) g.field.kind none j x v ↔
      callMethod P (d + 2) r (t!"Get" ++ g.name) = .ok (.typed (kindGoType g.field.kind) v) := by
  rw [C69_source_reads hN hf] at hP
  have hP : P.decls = fileDecls N f := by injection hP with hP; injection hP with _ hP; exact hP.symm
  rw [run_memberGetter hf hP hD hS hm hM ho hj hg hl hG hr d, C60_getter_partial _ _ _ _ hx]
  generalize getMember _ _ _ _ = y
  cases y with
  | ok w => simp [getterResult]
  | error e => simp [getterResult]

/-- C72. A getter never fails for other reasons: it yields a value of the type of the field for every pointer to a message other than
those below. -/
theorem C72_total {N : TextNames} (hN : TextNamesOK N) {f : TextFile} (hf : TextFileOK f) {P : Pkg}
    (hP : parseFile (fileText N f) = some (f.pkg, P.decls)) (hD : NoDuplicates P.decls) (hS : ScopeOK P.scope) {m : TextMessage}
    (hm : m ∈ f.messages) (hM : MessageScope P.scope N m) {i j : Nat} {o : TextOneof} (ho : m.oneofs[i]? = some o) {g : TextField}
    (hj : o.members[j]? = some g) (hg : g ∈ m.fields) (hl : g.field.label = .oneof i) (hG : GetterScope P g) {x : Receiver} {r : GVal}
    (hr : ReceiverIs P m o x r) (d : Nat) :
    (∃ v, callMethod P (d + 2) r (t!"Get" ++ g.name) = .ok (.typed (kindGoType g.field.kind) v)) ↔ x ≠ .msg (.nilWrapper j) := by
  rw [C69_source_reads hN hf] at hP
  have hP : P.decls = fileDecls N f := by injection hP with hP; injection hP with _ hP; exact hP.symm
  rw [run_memberGetter hf hP hD hS hm hM ho hj hg hl hG hr d]
  cases x with
  | nil => simp [getMember, getOneof, getterResult]
  | msg y =>
    cases y with
    | none => simp [getMember, getOneof, getterResult]
    | wrapper k v =>
      by_cases h : k = j <;> simp [getMember, getOneof, getterResult, h]
    | nilWrapper k =>
      by_cases h : k = j <;> simp [getMember, getOneof, getterResult, h]

/-- C72. The getter of the oneof itself yields the interface value, nil for a nil message. -/
theorem C72_oneof_getter {N : TextNames} (hN : TextNamesOK N) {f : TextFile} (hf : TextFileOK f) {P : Pkg}
    (hP : parseFile (fileText N f) = some (f.pkg, P.decls)) (hD : NoDuplicates P.decls) (hnil : P.consts t!"nil" = none) {m : TextMessage}
    (hm : m ∈ f.messages) {i : Nat} {o : TextOneof} (ho : m.oneofs[i]? = some o) {g : TextField} (hg : g ∈ m.fields)
    (hl : g.field.label = .oneof i) {x : OneofVal} {r : GVal} (d : Nat) :
    (ReceiverIs P m o (.msg x) r → ∃ dyn, callMethod P (d + 1) r (t!"Get" ++ o.name) = .ok (.iface (oneofInterfaceName o) dyn) ∧ OneofIs P o x dyn) ∧
    callMethod P (d + 1) (.ptr m.name none) (t!"Get" ++ o.name) = .ok (.iface (oneofInterfaceName o) none) := by
  rw [C69_source_reads hN hf] at hP
  have hP : P.decls = fileDecls N f := by injection hP with hP; injection hP with _ hP; exact hP.symm
  refine ⟨fun hr => run_oneofGetter hP hD hm ho hg hl hnil hr d, ?_⟩
  obtain ⟨dyn, h, h'⟩ := run_oneofGetter hP hD hm ho hg hl hnil (.nil (o := o)) d
  rw [h]
  cases h'
  rfl

/-- C72 fails for a nil pointer to the wrapper struct of the member: the getter panics. -/
theorem C72_false_nil_wrapper {N : TextNames} (hN : TextNamesOK N) {f : TextFile} (hf : TextFileOK f) {P : Pkg}
    (hP : parseFile (fileText N f) = some (f.pkg, P.decls)) (hD : NoDuplicates P.decls) (hS : ScopeOK P.scope) {m : TextMessage}
    (hm : m ∈ f.messages) (hM : MessageScope P.scope N m) {i j : Nat} {o : TextOneof} (ho : m.oneofs[i]? = some o) {g : TextField}
    (hj : o.members[j]? = some g) (hg : g ∈ m.fields) (hl : g.field.label = .oneof i) (hG : GetterScope P g) {r : GVal}
    (hr : ReceiverIs P m o (.msg (.nilWrapper j)) r) (d : Nat) :
    callMethod P (d + 2) r (t!"Get" ++ g.name) = .error .panic := by
  rw [C69_source_reads hN hf] at hP
  have hP : P.decls = fileDecls N f := by injection hP with hP; injection hP with _ hP; exact hP.symm
  rw [run_memberGetter hf hP hD hS hm hM ho hj hg hl hG hr d]
  simp [getMember, getOneof, getterResult]

/-! ### a package -/

/-- The package of `textFile`, whose enum has a constant. -/
def textPkg : Pkg := ⟨fileDecls textNames textFile, textScope, fun n => if n = t!"E_Z" then some 0 else none⟩

theorem textPkg_ok : NoDuplicates textPkg.decls := by
  refine ⟨by decide +kernel, by decide +kernel, ?_⟩
  have : ∀ d ∈ textPkg.decls, ∀ n fs, d = .struct n fs → (fs.map SrcField.name).Nodup := by
    have h : ∀ d ∈ textPkg.decls, (match d with
      | .struct _ fs => decide (fs.map SrcField.name).Nodup
      | _ => true) = true := by decide +kernel
    rintro d hd n fs rfl
    exact of_decide_eq_true (h _ hd)
  exact fun n fs h => this _ h n fs rfl

theorem textGetter_ok : GetterScope textPkg textMember :=
  ⟨rfl, rfl, fun _ _ => ⟨rfl, by decide⟩, fun _ => by decide, fun _ => ⟨by decide, by decide⟩, by decide⟩

/-- The message with `o` set to `c = 7`. -/
def textValue : GVal :=
  .ptr t!"M" (some [(t!"A", .typed .int32 (.w32 1#32)), (t!"B", .nil), (t!"D", .nil),
    (t!"O", .iface t!"isM_O" (some (t!"M_C", some [(t!"C", .typed .int32 (.w32 7#32))])))])

theorem textValue_ok : ReceiverIs textPkg textMessage ⟨t!"O", t!"o", t!"M_O", t!"}", [textMember]⟩ (.msg (.wrapper 0 (.w32 7#32))) textValue := by
  have h1 : structDecl textNames textMessage ∈ textPkg.decls := struct_declared (List.mem_singleton.mpr rfl)
  have h2 : wrapperDecl textNames true textMember ∈ textPkg.decls := by decide +kernel
  have h3 : typeMeans textPkg.scope (goTypeExpr textNames textMember) = some .int32 := by decide +kernel
  exact .msg _ _ _ _ h1 (by decide +kernel) (.wrapper 0 textMember _ _ rfl (.mk _ _ _ _ h2 h3))
    (List.mem_cons_of_mem _ (List.mem_cons_of_mem _ (List.mem_cons_of_mem _ (List.mem_cons_self ..))))

/-- The theorem applies to it; running the getter by hand gives the same. -/
example : callMethod textPkg 2 textValue t!"GetC" = .ok (.typed .int32 (.w32 7#32)) :=
  (C72_getter_partial textNames_ok textFile_ok (C69_source_reads textNames_ok textFile_ok) textPkg_ok textScope_ok.1
    (List.mem_singleton.mpr rfl) textScope_ok.2 (i := 0) (j := 0) rfl rfl (by simp [textMessage]) rfl textGetter_ok textValue_ok
    (by intro h; cases h) 0 _).mp (.set _)

example : callMethod textPkg 2 textValue t!"GetC" = .ok (.typed .int32 (.w32 7#32)) := by rfl
example : callMethod textPkg 2 (.ptr t!"M" none) t!"GetC" = .ok (.typed .int32 (.w32 0#32)) := by rfl

/-! ### packages named x -/

/-- message `M { oneof o { x.E c = 3; } }` with the enum in a package that is imported as `x`, with first value 5. -/
def hiddenMember : TextField := ⟨t!"C", t!"M_C", [], [], false, ⟨3, .enum, .oneof 0⟩, ⟨some t!"x", t!"E"⟩, ⟨some t!"x", t!"E_Z"⟩, 5⟩

def hiddenFile : TextFile :=
  ⟨t!"a.proto", false, t!"p", [], [⟨t!"M", [], false, false, [hiddenMember], [⟨t!"O", t!"o", t!"M_O", [], [hiddenMember]⟩]⟩]⟩

/-- C72 fails for an enum in a package named `x`: the default `x.E(5)` refers to the receiver `x`. Go does not compile it. -/
theorem C72_false_package_x (S : Scope) (K : Text → Option Int) (d : Nat) (hnil : K t!"nil" = none) :
    ∃ ds, parseFile (fileText textNames hiddenFile) = some (t!"p", ds) ∧
      callMethod ⟨ds, S, K⟩ (d + 2) (.ptr t!"M" none) t!"GetC" = .error .stuck := by
  refine ⟨fileDecls textNames hiddenFile, by decide +kernel, ?_⟩
  have h1 : callMethod ⟨fileDecls textNames hiddenFile, S, K⟩ (d + 1) (.ptr t!"M" none) t!"GetO" = .ok (.iface t!"isM_O" none) := by
    show (match (match K t!"nil" with
      | some k => Except.ok (GVal.num k)
      | none => Except.ok GVal.nil) with
      | .ok v => assignTo ⟨fileDecls textNames hiddenFile, S, K⟩ (.name none t!"isM_O") v
      | .error f => .error f) = _
    rw [hnil]
    rfl
  have h2 : findMethod t!"M" t!"GetC" (fileDecls textNames hiddenFile) = some (some t!"x", some (.name (some t!"x") t!"E"), _) := rfl
  rw [callMethod, h2]
  simp only
  rw [show parseBody _ _ = some (memberBody ⟨t!"O", t!"o", t!"M_O", [], [hiddenMember]⟩ hiddenMember) from rfl]
  simp only [memberBody]
  have h3 : evalExpr ⟨fileDecls textNames hiddenFile, S, K⟩ (callMethod ⟨fileDecls textNames hiddenFile, S, K⟩ (d + 1))
      [(t!"x", .ptr t!"M" none)] (.call (.sel (.ident t!"x") (t!"Get" ++ t!"O"))) = .ok (.iface t!"isM_O" none) := h1
  rw [runBody, h3]
  rfl

end Pb.Props
