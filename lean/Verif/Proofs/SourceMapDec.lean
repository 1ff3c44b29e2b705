import Verif.Proofs.SourceSlice
/-
Running the decode function literal of map.go.
-/
namespace Pb.Go
open Tree

set_option linter.unusedSimpArgs false

variable {X : Calls} {d : Nat} (k : Nat) {m : Val}

theorem run_MakeMap (args : List V) : invoke library X d (k + 1) none t!"MakeMap" args m = X none t!"MakeMap" args m := by
  rw [invoke]; simp only [Option.map, find_MakeMap]
theorem run_MapAssign (args : List V) : invoke library X d (k + 1) none t!"MapAssign" args m = X none t!"MapAssign" args m := by
  rw [invoke]; simp only [Option.map, find_MapAssign]
theorem run_Assign (args : List V) : invoke library X d (k + 1) none t!"Assign" args m = X none t!"Assign" args m := by
  rw [invoke]; simp only [Option.map, find_Assign]

/-- What is there after `if *m == nil { *m = MakeMap(mtype, 10) }`. -/
def MadeMap (p : List Step) (es : List (Key × Val)) (m m1 : Val) : Prop :=
  (getPath p m = .ok (.map true es) ∧ setPath (.map false es) p m = .ok m1) ∨ (m1 = m ∧ getPath p m = .ok (.map false es))

theorem MadeMap.get {p : List Step} {es : List (Key × Val)} {m m1 : Val} (h : MadeMap p es m m1) : getPath p m1 = .ok (.map false es) := by
  rcases h with ⟨_, hs⟩ | ⟨rfl, hp⟩
  · exact (setPath_get hs).1
  · exact hp

theorem run_mapDecode_empty {p s : List Step} {es : List (Key × Val)} {m1 : Val} {i : MapInfo} {kd vd : Codec} {hit : Bool}
    (hX : ∀ args m, X none t!"MakeMap" args m = .ok ([.newmap], m)) (h1 : MadeMap p es m m1) :
    callClosure (invoke library X d (k + 1)) d closure_mapDecode (mapDecodeOuter i kd vd hit s) [.bytes (some []), .ptr p .uptr] m
      = .ok ([.int 0#64, .err none], m1) := by
  unfold closure_mapDecode
  rcases h1 with ⟨hp, hs⟩ | ⟨rfl, hp⟩
  · have hg := (setPath_get hs).1
    go_run [callClosure, mapDecodeOuter, hp, hs, hg, hX, run_MakeMap]
  · go_run [callClosure, mapDecodeOuter, hp]

theorem length_ne {b : Bytes} (hb : b.length < 2 ^ 60) (hne : b ≠ []) : BitVec.ofNat 64 b.length ≠ 0#64 := by
  have := List.length_pos_iff.2 hne
  intro h
  have := congrArg BitVec.toNat h
  simp only [BitVec.toNat_ofNat] at this
  omega

theorem run_mapDecode_err {p s : List Step} {es : List (Key × Val)} {m1 : Val} {i : MapInfo} {kd vd : Codec} {hit : Bool} {b : Bytes} {x : U64} {n : Nat}
    {e : Err} (hb : b.length < 2 ^ 60) (hne : b ≠ []) (hX : ∀ args m, X none t!"MakeMap" args m = .ok ([.newmap], m)) (h1 : MadeMap p es m m1)
    (hv : decodeVarint b = (x, n, some e)) :
    callClosure (invoke library X d (k + 1)) d closure_mapDecode (mapDecodeOuter i kd vd hit s) [.bytes (some b), .ptr p .uptr] m
      = .ok ([.int 0#64, .err (some e)], m1) := by
  have hr := fun m => run_decodeVarint (X := X) (d := d) k (m := m) b hb
  rw [hv] at hr
  have hl := length_ne hb hne
  unfold closure_mapDecode
  rcases h1 with ⟨hp, hs⟩ | ⟨rfl, hp⟩
  · have hg := (setPath_get hs).1
    cases hit <;> go_run [callClosure, mapDecodeOuter, hp, hs, hg, hX, run_MakeMap, hr, varintResult, poolMethod, hl]
  · cases hit <;> go_run [callClosure, mapDecodeOuter, hp, hr, varintResult, poolMethod, hl]

set_option maxHeartbeats 1000000 in
/-- The entry cannot be decoded: the map stays as it is, the struct is made zero. -/
theorem run_mapDecode_fail {p s : List Step} {es : List (Key × Val)} {m1 m2 m3 : Val} {i : MapInfo} {kd vd : Codec} {hit : Bool} {b : Bytes} {x : U64}
    {n : Nat} {j : BitVec 64} {e : Err} (hb : b.length < 2 ^ 60) (hne : b ≠ []) (hX : ∀ args m, X none t!"MakeMap" args m = .ok ([.newmap], m))
    (h1 : MadeMap p es m m1) (hv : decodeVarint b = (x, n, none)) (hz : isZero i.kzero = true ∧ isZero i.vzero = true)
    (hI : invoke library X d (k + 1) (some (.info (entryFields i kd vd))) t!"decode" [.bytes (some (b.drop n)), .ptr s .uptr] m1
      = .ok ([.int j, .err (some e)], m2))
    (hA : X none t!"Assign" [.rtype (.struct [i.kzero, i.vzero]), .ptr s .uptr, .newptr (.struct [i.kzero, i.vzero])] m2 = .ok ([], m3))
    (hs3 : getPath s m3 = .ok (.struct [i.kzero, i.vzero])) :
    callClosure (invoke library X d (k + 1)) d closure_mapDecode (mapDecodeOuter i kd vd hit s) [.bytes (some b), .ptr p .uptr] m
      = .ok ([.int (j + BitVec.ofNat 64 n), .err (some e)], m3) := by
  have hn := decodeVarint_le hv
  have hsl := slice_from hb hn
  have hr := fun m => run_decodeVarint (X := X) (d := d) k (m := m) b hb
  rw [hv] at hr
  have hl := length_ne hb hne
  have e1 : n % 18446744073709551616 = n := Nat.mod_eq_of_lt (by omega)
  unfold closure_mapDecode
  rcases h1 with ⟨hp, hs⟩ | ⟨rfl, hp⟩
  · have hg := (setPath_get hs).1
    cases hit <;> go_run [callClosure, mapDecodeOuter, hp, hs, hg, hX, run_MakeMap, hr, varintResult, poolMethod, hl, hI, run_Assign, hA, hs3, hz.1, hz.2,
      msb_ofNat (show n < 2 ^ 63 by omega), e1, hn, Option.map]
  · cases hit <;> go_run [callClosure, mapDecodeOuter, hp, hr, varintResult, poolMethod, hl, hI, run_Assign, hA, hs3, hz.1, hz.2,
      msb_ofNat (show n < 2 ^ 63 by omega), e1, hn, Option.map]

set_option maxHeartbeats 1000000 in
/-- The entry is decoded: it is put into the map, the struct is made zero. -/
theorem run_mapDecode {p s q : List Step} {es es2 : List (Key × Val)} {m1 m2 m3 m4 m5 : Val} {i : MapInfo} {kd vd : Codec} {hit : Bool} {b : Bytes} {x : U64}
    {n : Nat} {j : BitVec 64} (hb : b.length < 2 ^ 60) (hne : b ≠ []) (hX : ∀ args m, X none t!"MakeMap" args m = .ok ([.newmap], m))
    (h1 : MadeMap p es m m1) (hv : decodeVarint b = (x, n, none)) (hz : isZero i.kzero = true ∧ isZero i.vzero = true)
    (hI : invoke library X d (k + 1) (some (.info (entryFields i kd vd))) t!"decode" [.bytes (some (b.drop n)), .ptr s .uptr] m1
      = .ok ([.int j, .err none], m2))
    (hp2 : getPath p m2 = .ok (.map false es2))
    (hM : X none t!"MapAssign" [.rtype i.vzero, .ptr (p ++ [.entries]) .uptr, .ptr s .uptr] m2 = .ok ([.ptr q .uptr], m3))
    (hV : X none t!"Assign" [.rtype i.vzero, .ptr q .uptr, .ptr (s ++ [.slot 1]) .uptr] m3 = .ok ([], m4))
    (hA : X none t!"Assign" [.rtype (.struct [i.kzero, i.vzero]), .ptr s .uptr, .newptr (.struct [i.kzero, i.vzero])] m4 = .ok ([], m5))
    (hs5 : getPath s m5 = .ok (.struct [i.kzero, i.vzero])) :
    callClosure (invoke library X d (k + 1)) d closure_mapDecode (mapDecodeOuter i kd vd hit s) [.bytes (some b), .ptr p .uptr] m
      = .ok ([.int (j + BitVec.ofNat 64 n), .err none], m5) := by
  have hn := decodeVarint_le hv
  have hsl := slice_from hb hn
  have hr := fun m => run_decodeVarint (X := X) (d := d) k (m := m) b hb
  rw [hv] at hr
  have hl := length_ne hb hne
  have e1 : n % 18446744073709551616 = n := Nat.mod_eq_of_lt (by omega)
  unfold closure_mapDecode
  rcases h1 with ⟨hp, hs⟩ | ⟨rfl, hp⟩
  · have hg := (setPath_get hs).1
    cases hit <;> go_run [callClosure, mapDecodeOuter, hp, hs, hg, hX, run_MakeMap, hr, varintResult, poolMethod, hl, hI, run_Assign, run_MapAssign, hp2, hM,
      hV, hA, hs5, hz.1, hz.2, msb_ofNat (show n < 2 ^ 63 by omega), e1, hn, Option.map]
  · cases hit <;> go_run [callClosure, mapDecodeOuter, hp, hr, varintResult, poolMethod, hl, hI, run_Assign, run_MapAssign, hp2, hM,
      hV, hA, hs5, hz.1, hz.2, msb_ofNat (show n < 2 ^ 63 by omega), e1, hn, Option.map]

/-! ### functions of the runtime -/

theorem touch_cons {z v' : Val} {k k' : Key} {es : List (Key × Val)} :
    touch z k ((k', v') :: es) = if k' = k then (k', v') :: es else (k', v') :: touch z k es := by
  unfold touch
  by_cases h : k' = k
  · simp [h]
  · simp only [List.any_cons, h, decide_false, Bool.false_or, if_false]
    split <;> rfl

theorem entryOf_cons {v' : Val} {k k' : Key} {es : List (Key × Val)} :
    entryOf k ((k', v') :: es) = if k' = k then 0 else entryOf k es + 1 := by
  unfold entryOf
  rw [List.findIdx_cons]
  by_cases h : k' = k <;> simp [h]

/-- `MapAssign` and writing the value there. -/
theorem touch_set {z v : Val} {k : Key} : ∀ es : List (Key × Val), ∃ e, (touch z k es)[entryOf k (touch z k es)]? = some e ∧
    (touch z k es).set (entryOf k (touch z k es)) (e.1, v) = mapAssign es k v
  | [] => ⟨(k, z), by simp [touch, entryOf], by simp [touch, entryOf, mapAssign]⟩
  | (k', v') :: es => by
    rw [touch_cons, mapAssign]
    by_cases h : k' = k
    · rw [if_pos h, if_pos h, entryOf_cons, if_pos h]
      exact ⟨_, rfl, rfl⟩
    · rw [if_neg h, if_neg h, entryOf_cons, if_neg h]
      obtain ⟨e, h1, h2⟩ := touch_set (z := z) (v := v) (k := k) es
      exact ⟨e, by rw [List.getElem?_cons_succ]; exact h1, by rw [List.set_cons_succ, h2]⟩

theorem mapPlace_entries {p : List Step} : mapPlace (p ++ [.entries]) = some p := by
  simp [mapPlace]

theorem call_MapAssign {p s : List Step} {z k v m m' : Val} {key : Key} {es : List (Key × Val)} (hs : getPath s m = .ok (.struct [k, v]))
    (hk : k.toKey? = some key) (hp : getPath p m = .ok (.map false es)) (hm : setPath (.map false (touch z key es)) p m = .ok m') :
    runtimeCall t!"MapAssign" [.rtype z, .ptr (p ++ [.entries]) .uptr, .ptr s .uptr] m
      = .ok ([.ptr (p ++ [.entries] ++ [.entry (entryOf key (touch z key es))]) .uptr], m') := by
  unfold runtimeCall
  rw [if_neg (by decide), if_pos rfl]
  simp only [mapPlace_entries, pointee, hs, hk, hp, hm, bind, Except.bind]

theorem call_Assign_entry {p s : List Step} {z v m m' : Val} {i : Nat} {n : Bool} {e : Key × Val} {es : List (Key × Val)} (hs : getPath s m = .ok v)
    (hp : getPath p m = .ok (.map n es)) (hi : es[i]? = some e) (hm : setPath (.map n (es.set i (e.1, v))) p m = .ok m') :
    runtimeCall t!"Assign" [.rtype z, .ptr (p ++ [.entries] ++ [.entry i]) .uptr, .ptr s .uptr] m = .ok ([], m') := by
  unfold runtimeCall
  rw [if_neg (by decide), if_neg (by decide), if_pos rfl]
  simp only [pointee, hs, bind, Except.bind, List.getLast?_append, List.getLast?_singleton, Option.some_or, List.dropLast_concat, mapPlace_entries, hp,
    setEntry, hi, hm]

theorem call_Assign_slot {z w m m' : Val} {i : Nat} (hm : setPath w [.slot i] m = .ok m') :
    runtimeCall t!"Assign" [.rtype z, .ptr [.slot i] .uptr, .newptr w] m = .ok ([], m') := by
  unfold runtimeCall
  rw [if_neg (by decide), if_neg (by decide), if_pos rfl]
  simp only [pointee, bind, Except.bind, List.getLast?_singleton, hm]

end Pb.Go
