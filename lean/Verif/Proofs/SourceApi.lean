import Verif.Proofs.SourceRun
/-
Runs of the functions of proto.go.
-/
namespace Pb.Go
open Tree

set_option maxRecDepth 100000

theorem parse_api : parse apiGo = some api_decls := by decide +kernel
theorem parse_inspect : parse inspectGo = some inspect_decls := by decide +kernel

/-- All functions of proto.go that are run. -/
def apiLibrary : List FuncDecl := [api_Size, api_Marshal, api_Unmarshal, inspect_inspect]

theorem apiProgram_eq : apiProgram = apiLibrary := by
  simp only [apiProgram, readAll, parse_api, parse_inspect, Option.getD]
  rfl

theorem find_Size : findFunc apiLibrary none t!"Size" = some api_Size := by decide +kernel
theorem find_Marshal : findFunc apiLibrary none t!"Marshal" = some api_Marshal := by decide +kernel
theorem find_Unmarshal : findFunc apiLibrary none t!"Unmarshal" = some api_Unmarshal := by decide +kernel
theorem find_inspect : findFunc apiLibrary none t!"inspect" = some inspect_inspect := by decide +kernel
theorem find_cached : findFunc apiLibrary none t!"cachedStructInfoOf" = none := by decide +kernel
theorem find_info_size : findFunc apiLibrary (some (some t!"structInfo")) t!"size" = none := by decide +kernel
theorem find_info_encode : findFunc apiLibrary (some (some t!"structInfo")) t!"encode" = none := by decide +kernel
theorem find_info_decode : findFunc apiLibrary (some (some t!"structInfo")) t!"decode" = none := by decide +kernel

theorem kind_ptr {t : RType} : t.ptr.kind = 22#64 := rfl

theorem slt_self (x : BitVec 64) : x.slt x = false := by simp [BitVec.slt]

/-- Start the run of an exported function. -/
macro "api_call" f:ident t:ident : tactic =>
  `(tactic| (rw [runApi, apiProgram_eq]; obtain ⟨k, hk⟩ : ∃ k, 2 = k + 2 := ⟨0, rfl⟩; rw [hk]; go_call $f $t))

variable {env : Env} {hit : List V → Val → Bool} {d j k : Nat} {m : Val}

theorem run_inspect {X : Calls} {t : Option RType} {p : List Step} :
    invoke apiLibrary X d (k + 1) none t!"inspect" [.iface t (.ptr p .uptr)] m = .ok ([.gotype t, .ptr p .uptr], m) := by
  go_call find_inspect inspect_inspect
  go_run []

theorem run_inspect_null {X : Calls} {t : Option RType} :
    invoke apiLibrary X d (k + 1) none t!"inspect" [.iface t (.null .uptr)] m = .ok ([.gotype t, .null .uptr], m) := by
  go_call find_inspect inspect_inspect
  go_run []

theorem run_cached {t : TypeId} :
    invoke apiLibrary (apiCalls env hit d j) d (k + 1) none t!"cachedStructInfoOf" [.gotype (some (.struct t))] m =
      .ok ([.info (env t).fields], m) := by
  rw [invoke]
  simp only [Option.map, find_cached]
  rfl

theorem run_cached_panic {t : RType} (h : t.kind ≠ 25#64) :
    invoke apiLibrary (apiCalls env hit d j) d (k + 1) none t!"cachedStructInfoOf" [.gotype (some t)] m = .error .panic := by
  rw [invoke]
  simp only [Option.map, find_cached]
  cases t with
  | struct => exact absurd rfl h
  | _ => rfl

theorem run_info_size {fs : List Field} {args : List V} :
    invoke apiLibrary (apiCalls env hit d j) d (k + 1) (some (.info fs)) t!"size" args m =
      invoke program (codecs env hit d j) d 6 (some (.info fs)) t!"size" args m := by
  rw [invoke]
  simp only [Option.map, V.typeName, find_info_size]
  rfl

theorem run_info_encode {fs : List Field} {args : List V} :
    invoke apiLibrary (apiCalls env hit d j) d (k + 1) (some (.info fs)) t!"encode" args m =
      invoke program (codecs env hit d j) d 6 (some (.info fs)) t!"encode" args m := by
  rw [invoke]
  simp only [Option.map, V.typeName, find_info_encode]
  rfl

theorem run_info_decode {fs : List Field} {args : List V} :
    invoke apiLibrary (apiCalls env hit d j) d (k + 1) (some (.info fs)) t!"decode" args m =
      invoke program (codecs env hit d j) d 6 (some (.info fs)) t!"decode" args m := by
  rw [invoke]
  simp only [Option.map, V.typeName, find_info_decode]
  rfl

theorem info_size_nil {t : TypeId} : runInfo env hit d j t t!"size" [.null .uptr] m = .ok ([.int 0#64], m) := by
  rw [runInfo, program_eq]
  go_call find_size struct_size
  go_run []

theorem info_encode_nil {t : TypeId} {b : Bytes} :
    runInfo env hit d j t t!"encode" [.bytes (some b), .null .uptr] m = .ok ([.bytes (some b)], m) := by
  rw [runInfo, program_eq]
  go_call find_encode struct_encode
  go_run []

/-! ### Size -/

theorem api_size_nil : runApi env hit d j t!"Size" [.iface none (.null .uptr)] m = .error .panic := by
  api_call find_Size api_Size
  go_run [run_inspect, run_inspect_null]

theorem api_size_nonPtr {t : RType} {w : V} (h : t.kind ≠ 22#64) (hw : w = .null .uptr ∨ ∃ p, w = .ptr p .uptr) :
    runApi env hit d j t!"Size" [.iface (some t) w] m = .error .panic := by
  api_call find_Size api_Size
  rcases hw with rfl | ⟨p, rfl⟩
  all_goals go_run [run_inspect, run_inspect_null, h]

theorem api_size_other {t : RType} {w : V} (h : t.kind ≠ 25#64) (hw : w = .null .uptr ∨ ∃ p, w = .ptr p .uptr) :
    runApi env hit d j t!"Size" [.iface (some (.ptr t)) w] m = .error .panic := by
  api_call find_Size api_Size
  rcases hw with rfl | ⟨p, rfl⟩
  all_goals go_run [run_inspect, run_inspect_null, RType.kind, run_cached_panic h]

theorem api_size_msg {t : TypeId} {w : V} {n : BitVec 64} (hw : w = .null .uptr ∨ ∃ p, w = .ptr p .uptr)
    (h : runInfo env hit d j t t!"size" [w] m = .ok ([.int n], m)) :
    runApi env hit d j t!"Size" [.iface (some (.ptr (.struct t))) w] m = .ok ([.int n], m) := by
  rw [runInfo] at h
  api_call find_Size api_Size
  rcases hw with rfl | ⟨p, rfl⟩
  all_goals go_run [run_inspect, run_inspect_null, RType.kind, run_cached, run_info_size, h]

/-! ### Marshal -/

theorem api_marshal_nil : runApi env hit d j t!"Marshal" [.iface none (.null .uptr)] m = .error .panic := by
  api_call find_Marshal api_Marshal
  go_run [run_inspect, run_inspect_null]

theorem api_marshal_nonPtr {t : RType} {w : V} (h : t.kind ≠ 22#64) (hw : w = .null .uptr ∨ ∃ p, w = .ptr p .uptr) :
    runApi env hit d j t!"Marshal" [.iface (some t) w] m = .ok ([.bytes none, .apierr .notPointer], m) := by
  api_call find_Marshal api_Marshal
  rcases hw with rfl | ⟨p, rfl⟩
  all_goals go_run [run_inspect, run_inspect_null, h]

theorem api_marshal_other {t : RType} {w : V} (h : t.kind ≠ 25#64) (hw : w = .null .uptr ∨ ∃ p, w = .ptr p .uptr) :
    runApi env hit d j t!"Marshal" [.iface (some (.ptr t)) w] m = .error .panic := by
  api_call find_Marshal api_Marshal
  rcases hw with rfl | ⟨p, rfl⟩
  all_goals go_run [run_inspect, run_inspect_null, RType.kind, run_cached_panic h]

theorem api_marshal_msg {t : TypeId} {w : V} {n : BitVec 64} {b : Bytes} (hw : w = .null .uptr ∨ ∃ p, w = .ptr p .uptr)
    (h : runInfo env hit d j t t!"size" [w] m = .ok ([.int n], m))
    (h' : runInfo env hit d j t t!"encode" [.bytes (some []), w] m = .ok ([.bytes (some b)], m)) :
    runApi env hit d j t!"Marshal" [.iface (some (.ptr (.struct t))) w] m = .ok ([.bytes (some b), .err none], m) := by
  rw [runInfo] at h h'
  api_call find_Marshal api_Marshal
  rcases hw with rfl | ⟨p, rfl⟩
  all_goals go_run [run_inspect, run_inspect_null, RType.kind, run_cached, run_info_size, run_info_encode, h, h']

/-! ### Unmarshal -/

theorem api_unmarshal_empty {s : Option Bytes} {t : Option RType} {w : V} (h : s.getD [] = []) :
    runApi env hit d j t!"Unmarshal" [.bytes s, .iface t w] m = .ok ([.err none], m) := by
  api_call find_Unmarshal api_Unmarshal
  go_run [h]

theorem api_unmarshal_nil {b : Bytes} (hb : ¬ BitVec.ofNat 64 b.length = 0#64) :
    runApi env hit d j t!"Unmarshal" [.bytes (some b), .iface none (.null .uptr)] m = .error .panic := by
  api_call find_Unmarshal api_Unmarshal
  go_run [hb, run_inspect, run_inspect_null]

theorem api_unmarshal_nonPtr {b : Bytes} {t : RType} {w : V} (hb : ¬ BitVec.ofNat 64 b.length = 0#64) (h : t.kind ≠ 22#64)
    (hw : w = .null .uptr ∨ ∃ p, w = .ptr p .uptr) :
    runApi env hit d j t!"Unmarshal" [.bytes (some b), .iface (some t) w] m = .ok ([.apierr .invalidUnmarshal], m) := by
  api_call find_Unmarshal api_Unmarshal
  rcases hw with rfl | ⟨p, rfl⟩
  all_goals go_run [hb, run_inspect, run_inspect_null, h]

theorem api_unmarshal_null {b : Bytes} {t : RType} (hb : ¬ BitVec.ofNat 64 b.length = 0#64) :
    runApi env hit d j t!"Unmarshal" [.bytes (some b), .iface (some (.ptr t)) (.null .uptr)] m = .ok ([.apierr .invalidUnmarshal], m) := by
  api_call find_Unmarshal api_Unmarshal
  go_run [hb, run_inspect, run_inspect_null, RType.kind]

theorem api_unmarshal_other {b : Bytes} {t : RType} {p : List Step} (hb : ¬ BitVec.ofNat 64 b.length = 0#64) (h : t.kind ≠ 25#64) :
    runApi env hit d j t!"Unmarshal" [.bytes (some b), .iface (some (.ptr t)) (.ptr p .uptr)] m = .ok ([.apierr .invalidUnmarshal], m) := by
  api_call find_Unmarshal api_Unmarshal
  go_run [hb, run_inspect, h, kind_ptr]

theorem api_unmarshal_err {b : Bytes} {t : TypeId} {p : List Step} {n : BitVec 64} {e : Err} {m' : Val}
    (hb : ¬ BitVec.ofNat 64 b.length = 0#64)
    (h : runInfo env hit d j t t!"decode" [.bytes (some b), .ptr p .uptr] m = .ok ([.int n, .err (some e)], m')) :
    runApi env hit d j t!"Unmarshal" [.bytes (some b), .iface (some (.ptr (.struct t))) (.ptr p .uptr)] m = .ok ([.err (some e)], m') := by
  rw [runInfo] at h
  api_call find_Unmarshal api_Unmarshal
  go_run [hb, run_inspect, run_inspect_null, RType.kind, run_cached, run_info_decode, h]

theorem api_unmarshal_ok {b : Bytes} {t : TypeId} {p : List Step} {m' : Val} (hb : ¬ BitVec.ofNat 64 b.length = 0#64)
    (h : runInfo env hit d j t t!"decode" [.bytes (some b), .ptr p .uptr] m = .ok ([.int (BitVec.ofNat 64 b.length), .err none], m')) :
    runApi env hit d j t!"Unmarshal" [.bytes (some b), .iface (some (.ptr (.struct t))) (.ptr p .uptr)] m = .ok ([.err none], m') := by
  rw [runInfo] at h
  api_call find_Unmarshal api_Unmarshal
  go_run [hb, run_inspect, run_inspect_null, RType.kind, run_cached, run_info_decode, h, slt_self]

end Pb.Go
