import Verif.Proofs.SourceSlice
/-
Running the size and encode function literals of map.go.
-/
namespace Pb.Go
open Tree

set_option linter.unusedSimpArgs false

variable {X : Calls} {d : Nat} (k : Nat) {m : Val}

/-! ### size -/

def mapSizeBody : Stmt :=
  match closure_mapSize.body with
  | .seq _ (.seq _ (.seq _ (.seq _ (.seq _ (.seq (.loop _ _ _ b) _))))) => b
  | _ => .skip

def mapSizeVars (p : List Step) (f : Field) (i : MapInfo) (kc vc : Codec) (j n : Nat) : Vars :=
  (t!"m", .iter (some (p ++ [.entries])) j) :: (t!"n", .int (BitVec.ofNat 64 n)) ::
    (t!"p", .ptr (p ++ [.entries]) .uptr) :: (t!"sf", .field (some f)) :: mapSizeOuter i kc vc

theorem getPath_entries {p : List Step} {es : List (Key × Val)} {isNil : Bool} (hp : getPath p m = .ok (.map isNil es)) :
    getPath (p ++ [.entries]) m = .ok (.map isNil es) := by
  rw [getPath_append hp]; rfl

theorem run_mapSize {p : List Step} {isNil : Bool} {es : List (Key × Val)} {i : MapInfo} {kc vc : Codec} {f : Field} {n : Nat}
    {ks : Val → Except Fault Nat} {vs : Val → Except Fault Nat}
    (hp : getPath p m = .ok (.map isNil es)) (hn : isNil = true → es = []) (hd : es.length < d) (hl : n < 2 ^ 64)
    (hK : ∀ j e s, es[j]? = some e → ks e.1.toVal = .ok s → s ≤ n →
      X (some (.codec kc)) t!"size" [.ptr (p ++ [.entries, .key j]) .uptr, .field (some ⟨0, i.key, kc⟩)] m = .ok ([.int (BitVec.ofNat 64 s)], m))
    (hV : ∀ j e s, es[j]? = some e → vs e.2 = .ok s → s ≤ n →
      X (some (.codec vc)) t!"size" [.ptr (p ++ [.entries, .entry j]) .uptr, .field (some ⟨0, i.val, vc⟩)] m = .ok ([.int (BitVec.ofNat 64 s)], m))
    (h : (sumSizes (fun (e : Key × Val) => do
        let keySize ← ks e.1.toVal
        let valSize ← vs e.2
        return sizeOfVarint i.wiretag + sizeOfVarint (BitVec.ofNat 64 (keySize + valSize)) + keySize + valSize) 0 es) = .ok n) :
    callClosure (invoke library X d (k + 1)) d closure_mapSize (mapSizeOuter i kc vc) [.ptr p .uptr, .field (some f)] m
      = .ok ([.int (BitVec.ofNat 64 (if n = 0 then sizeOfVarint i.wiretag + 1 else n))], m) := by
  have hbody : closure_mapSize.body =
    (.seq (.ite .skip (.bin .eq (.ident t!"p") (.ident t!"nil"))
    (.seq (.ret (.arg (.num 0) .none))
    .skip)
    .skip)
    (.seq (.assign (.arg (.ident t!"p") .none) (.arg (.un .deref (.call (.un .deref (.sel (.ident t!"unsafe") t!"Pointer")) (.arg (.ident t!"p") .none))) .none))
    (.seq (.define (.arg (.ident t!"n") .none) (.num 0))
    (.seq (.define (.arg (.ident t!"m") .none) (.lit (.ident t!"MapIter") .none))
    (.seq (.defer (.call (.sel (.ident t!"m") t!"Done") .none))
    (.seq (.loop (.expr (.call (.sel (.ident t!"m") t!"Init") (.arg (.call (.ident t!"pointer") (.arg (.ident t!"t") .none)) (.arg (.ident t!"p") .none)))) (.call (.sel (.ident t!"m") t!"HasNext") .none) (.expr (.call (.sel (.ident t!"m") t!"Next") .none))
    mapSizeBody)
    (.seq (.ite .skip (.bin .eq (.ident t!"n") (.num 0))
    (.seq (.assign (.arg (.ident t!"n") .none) (.arg (.bin .add (.ident t!"mapTagSize") (.ident t!"zeroSize")) .none))
    .skip)
    .skip)
    (.seq (.ret (.arg (.ident t!"n") .none))
    .skip)))))))) := rfl
  have hps : closure_mapSize.params = [(t!"p", (.sel (.ident t!"unsafe") t!"Pointer")), (t!"sf", (.un .deref (.ident t!"structField")))] := rfl
  have hrs : closure_mapSize.results = [(t!"", (.ident t!"int"))] := rfl
  cases isNil with
  | true =>
    have he := hn rfl
    subst he
    cases h
    obtain ⟨d, rfl⟩ : ∃ j, d = j + 1 := ⟨d - 1, by simp only [List.length_nil] at hd; omega⟩
    simp only [callClosure, hbody, hps, hrs]
    generalize mapSizeBody = B
    go_run [mapSizeOuter, hp, execDefer, iterStep, loopN, BitVec.ofNat_add]
  | false =>
    have hge := getPath_entries hp
    rw [sum_fold] at h
    have hloop := loop_list (mem := m) (d' := d) (es := es) (s := n) (i := 0) (n := es.length) (a := 0)
      (g := fun j n => (⟨mapSizeVars p f i kc vc j n, 0, m⟩ : State))
      (f := fun n e => (do
        let keySize ← ks e.1.toVal
        let valSize ← vs e.2
        return sizeOfVarint i.wiretag + sizeOfVarint (BitVec.ofNat 64 (keySize + valSize)) + keySize + valSize : Except Fault Nat).map (n + ·))
      (c := fun s => eval (invoke library X d (k + 1)) s.vars (.call (.sel (.ident t!"m") t!"HasNext") .none) s.mem)
      (body := inBlock (exec (invoke library X d (k + 1)) d mapSizeBody))
      (post := exec (invoke library X d (k + 1)) d (.expr (.call (.sel (.ident t!"m") t!"Next") .none)))
      (fun _ _ => rfl)
      (by
        intro j a hj
        go_run [mapSizeVars, hge])
      (by
        intro j a a' e he hf hr
        obtain ⟨l, _, hr⟩ := hr
        have hle := sum_mono l a' n (by rw [sum_fold]; exact hr)
        cases hk : ks e.1.toVal with
        | error x => rw [hk] at hf; cases hf
        | ok s1 =>
          cases hv : vs e.2 with
          | error x => rw [hk, hv] at hf; cases hf
          | ok s2 =>
            rw [hk, hv] at hf
            simp only [bind, Except.bind, pure, Except.pure, Except.map, Except.ok.injEq] at hf
            have hx := hK j e s1 he hk (by omega)
            have hy := hV j e s2 he hv (by omega)
            have hbody : mapSizeBody = (.seq (.define (.arg (.ident t!"keySize") .none) (.call (.sel (.ident t!"keyCodec") t!"size") (.arg (.call (.sel (.ident t!"m") t!"Key") .none) (.arg (.sel (.ident t!"f") t!"keyField") .none))))
              (.seq (.define (.arg (.ident t!"valSize") .none) (.call (.sel (.ident t!"valCodec") t!"size") (.arg (.call (.sel (.ident t!"m") t!"Value") .none) (.arg (.sel (.ident t!"f") t!"valField") .none))))
              (.seq (.opAssign .add (.ident t!"n") (.bin .add (.bin .add (.bin .add (.ident t!"mapTagSize") (.call (.ident t!"sizeOfVarint") (.arg (.call (.ident t!"uint64") (.arg (.bin .add (.ident t!"keySize") (.ident t!"valSize")) .none)) .none))) (.ident t!"keySize")) (.ident t!"valSize")))
              .skip))) := rfl
            refine ⟨.next, ⟨mapSizeVars p f i kc vc j a', 0, m⟩, .inl rfl, ?_, ?_⟩
            · subst hf
              rw [hbody]
              go_run [mapSizeVars, mapSizeOuter, run_codec, hx, hy, run_sizeOfVarint, BitVec.ofNat_add]
            · go_run [mapSizeVars, mapSizeOuter, iterStep])
      (by omega) hd h
    simp only [callClosure, hbody, hps, hrs]
    generalize mapSizeBody = B at hloop ⊢
    generalize (Expr.call (.sel (.ident t!"m") t!"HasNext") .none) = cnd at hloop ⊢
    generalize (Stmt.expr (.call (.sel (.ident t!"m") t!"Next") .none)) = pst at hloop ⊢
    simp only [mapSizeVars, mapSizeOuter] at hloop
    by_cases h0 : n = 0
    · subst h0
      go_run [mapSizeOuter, hp, execDefer, iterStep, hloop, BitVec.ofNat_add]
    · have hne : ¬ BitVec.ofNat 64 n = 0#64 := fun h => absurd ((ofNat_inj (b := 0) hl (by decide)).1 h) h0
      go_run [mapSizeOuter, hp, execDefer, iterStep, hloop, hne, h0]

/-! ### encode -/

def mapEncodeBody : Stmt :=
  match closure_mapEncode.body with
  | .seq _ (.seq _ (.seq _ (.seq _ (.seq _ (.seq (.loop _ _ _ b) _))))) => b
  | _ => .skip

def mapEncodeVars (p : List Step) (f : Field) (i : MapInfo) (kc vc : Codec) (o j : Nat) (b : Bytes) : Vars :=
  (t!"m", .iter (some (p ++ [.entries])) j) :: (t!"origLen", .int (BitVec.ofNat 64 o)) :: (t!"b", .bytes (some b)) ::
    (t!"p", .ptr (p ++ [.entries]) .uptr) :: (t!"sf", .field (some f)) :: mapEncodeOuter i kc vc

theorem run_mapEncode {p : List Step} {isNil : Bool} {es : List (Key × Val)} {i : MapInfo} {kc vc : Codec} {f : Field} {b r : Bytes}
    {ks vs : Val → Except Fault Nat} {ke ve : Bytes → Val → Except Fault Bytes}
    (hp : getPath p m = .ok (.map isNil es)) (hn : isNil = true → es = []) (hd : es.length < d) (hl : r.length < 2 ^ 63)
    (hmk : ∀ b v c, ke b v = .ok c → b.length ≤ c.length) (hmv : ∀ b v c, ve b v = .ok c → b.length ≤ c.length)
    (hK : ∀ j e s, es[j]? = some e → ks e.1.toVal = .ok s →
      X (some (.codec kc)) t!"size" [.ptr (p ++ [.entries, .key j]) .uptr, .field (some ⟨0, i.key, kc⟩)] m = .ok ([.int (BitVec.ofNat 64 s)], m))
    (hV : ∀ j e s, es[j]? = some e → vs e.2 = .ok s →
      X (some (.codec kc)) t!"size" [.ptr (p ++ [.entries, .entry j]) .uptr, .field (some ⟨0, i.val, vc⟩)] m = .ok ([.int (BitVec.ofNat 64 s)], m))
    (hKE : ∀ j e b c, es[j]? = some e → ke b e.1.toVal = .ok c → c.length ≤ r.length →
      X (some (.codec kc)) t!"encode" [.bytes (some b), .ptr (p ++ [.entries, .key j]) .uptr, .field (some ⟨0, i.key, kc⟩)] m = .ok ([.bytes (some c)], m))
    (hVE : ∀ j e b c, es[j]? = some e → ve b e.2 = .ok c → c.length ≤ r.length →
      X (some (.codec vc)) t!"encode" [.bytes (some b), .ptr (p ++ [.entries, .entry j]) .uptr, .field (some ⟨0, i.val, vc⟩)] m = .ok ([.bytes (some c)], m))
    (h : appendAll (fun b (e : Key × Val) => do
        let keySize ← ks e.1.toVal
        let valSize ← vs e.2
        let elemSize := keySize + valSize
        let b := b ++ appendVarint [] i.wiretag
        let b := appendVarint b (BitVec.ofNat 64 elemSize)
        let b ← ke b e.1.toVal
        ve b e.2) b es = .ok r) :
    callClosure (invoke library X d (k + 1)) d closure_mapEncode (mapEncodeOuter i kc vc) [.bytes (some b), .ptr p .uptr, .field (some f)] m
      = .ok ([.bytes (some (if r.length = b.length then r ++ (appendVarint [] i.wiretag ++ [0#8]) else r))], m) := by
  have hbody : closure_mapEncode.body =
    (.seq (.ite .skip (.bin .eq (.ident t!"p") (.ident t!"nil"))
    (.seq (.ret (.arg (.ident t!"b") .none))
    .skip)
    .skip)
    (.seq (.assign (.arg (.ident t!"p") .none) (.arg (.un .deref (.call (.un .deref (.sel (.ident t!"unsafe") t!"Pointer")) (.arg (.ident t!"p") .none))) .none))
    (.seq (.define (.arg (.ident t!"origLen") .none) (.call (.ident t!"len") (.arg (.ident t!"b") .none)))
    (.seq (.define (.arg (.ident t!"m") .none) (.lit (.ident t!"MapIter") .none))
    (.seq (.defer (.call (.sel (.ident t!"m") t!"Done") .none))
    (.seq (.loop (.expr (.call (.sel (.ident t!"m") t!"Init") (.arg (.call (.ident t!"pointer") (.arg (.ident t!"t") .none)) (.arg (.ident t!"p") .none)))) (.call (.sel (.ident t!"m") t!"HasNext") .none) (.expr (.call (.sel (.ident t!"m") t!"Next") .none))
    mapEncodeBody)
    (.seq (.ite .skip (.bin .eq (.call (.ident t!"len") (.arg (.ident t!"b") .none)) (.ident t!"origLen"))
    (.seq (.assign (.arg (.ident t!"b") .none) (.arg (.call (.ident t!"append") (.arg (.ident t!"b") (.arg (.spread (.ident t!"zero")) .none))) .none))
    .skip)
    .skip)
    (.seq (.ret (.arg (.ident t!"b") .none))
    .skip)))))))) := rfl
  have hps : closure_mapEncode.params =
    [(t!"b", (.un .sliceOf (.ident t!"byte"))), (t!"p", (.sel (.ident t!"unsafe") t!"Pointer")), (t!"sf", (.un .deref (.ident t!"structField")))] := rfl
  have hrs : closure_mapEncode.results = [(t!"", (.un .sliceOf (.ident t!"byte")))] := rfl
  cases isNil with
  | true =>
    have he := hn rfl
    subst he
    cases h
    obtain ⟨d, rfl⟩ : ∃ j, d = j + 1 := ⟨d - 1, by simp only [List.length_nil] at hd; omega⟩
    simp only [callClosure, hbody, hps, hrs]
    generalize mapEncodeBody = B
    go_run [mapEncodeOuter, hp, execDefer, iterStep, loopN]
  | false =>
    have hge := getPath_entries hp
    have hstep : ∀ b (e : Key × Val) c, (do
        let keySize ← ks e.1.toVal
        let valSize ← vs e.2
        let elemSize := keySize + valSize
        let b := b ++ appendVarint [] i.wiretag
        let b := appendVarint b (BitVec.ofNat 64 elemSize)
        let b ← ke b e.1.toVal
        ve b e.2 : Except Fault Bytes) = .ok c → ∃ s1 s2 b1, ks e.1.toVal = .ok s1 ∧ vs e.2 = .ok s2 ∧
          ke (appendVarint (b ++ appendVarint [] i.wiretag) (BitVec.ofNat 64 (s1 + s2))) e.1.toVal = .ok b1 ∧ ve b1 e.2 = .ok c := by
      intro b e c h
      cases hk : ks e.1.toVal with
      | error x => rw [hk] at h; cases h
      | ok s1 =>
        cases hv : vs e.2 with
        | error x => rw [hk, hv] at h; cases h
        | ok s2 =>
          rw [hk, hv] at h
          simp only [bind, Except.bind] at h
          cases hb : ke (appendVarint (b ++ appendVarint [] i.wiretag) (BitVec.ofNat 64 (s1 + s2))) e.1.toVal with
          | error x => rw [hb] at h; cases h
          | ok b1 => rw [hb] at h; exact ⟨s1, s2, b1, rfl, rfl, hb, h⟩
    have hmono : ∀ b (e : Key × Val) c, (do
        let keySize ← ks e.1.toVal
        let valSize ← vs e.2
        let elemSize := keySize + valSize
        let b := b ++ appendVarint [] i.wiretag
        let b := appendVarint b (BitVec.ofNat 64 elemSize)
        let b ← ke b e.1.toVal
        ve b e.2 : Except Fault Bytes) = .ok c → b.length ≤ c.length := by
      intro b e c h
      obtain ⟨s1, s2, b1, _, _, hb, hc⟩ := hstep b e c h
      have h1 := hmk _ _ _ hb
      have h2 := hmv _ _ _ hc
      rw [appendVarint_eq, List.length_append, List.length_append] at h1
      omega
    have hbl := append_mono hmono es b r h
    rw [append_fold] at h
    have hloop := loop_list (mem := m) (d' := d) (es := es) (s := r) (i := 0) (n := es.length) (a := b)
      (g := fun j n => (⟨mapEncodeVars p f i kc vc b.length j n, 0, m⟩ : State))
      (f := fun b (e : Key × Val) => do
        let keySize ← ks e.1.toVal
        let valSize ← vs e.2
        let elemSize := keySize + valSize
        let b := b ++ appendVarint [] i.wiretag
        let b := appendVarint b (BitVec.ofNat 64 elemSize)
        let b ← ke b e.1.toVal
        ve b e.2)
      (c := fun s => eval (invoke library X d (k + 1)) s.vars (.call (.sel (.ident t!"m") t!"HasNext") .none) s.mem)
      (body := inBlock (exec (invoke library X d (k + 1)) d mapEncodeBody))
      (post := exec (invoke library X d (k + 1)) d (.expr (.call (.sel (.ident t!"m") t!"Next") .none)))
      (fun _ _ => rfl)
      (by
        intro j a hj
        go_run [mapEncodeVars, hge])
      (by
        intro j a a' e he hf hr
        obtain ⟨l, _, hr⟩ := hr
        have hle := append_mono hmono l a' r (by rw [append_fold]; exact hr)
        obtain ⟨s1, s2, b1, hk, hv, hb, hc⟩ := hstep a e a' hf
        have h2 := hmv _ _ _ hc
        have hx := hK j e s1 he hk
        have hy := hV j e s2 he hv
        have hz := hKE j e _ _ he hb (by omega)
        have hw := hVE j e _ _ he hc hle
        have hbody : mapEncodeBody = (.seq (.define (.arg (.ident t!"key") .none) (.call (.sel (.ident t!"m") t!"Key") .none))
          (.seq (.define (.arg (.ident t!"val") .none) (.call (.sel (.ident t!"m") t!"Value") .none))
          (.seq (.define (.arg (.ident t!"keySize") .none) (.call (.sel (.ident t!"keyCodec") t!"size") (.arg (.ident t!"key") (.arg (.sel (.ident t!"f") t!"keyField") .none))))
          (.seq (.define (.arg (.ident t!"valSize") .none) (.call (.sel (.ident t!"keyCodec") t!"size") (.arg (.ident t!"val") (.arg (.sel (.ident t!"f") t!"valField") .none))))
          (.seq (.define (.arg (.ident t!"elemSize") .none) (.bin .add (.ident t!"keySize") (.ident t!"valSize")))
          (.seq (.assign (.arg (.ident t!"b") .none) (.arg (.call (.ident t!"append") (.arg (.ident t!"b") (.arg (.spread (.ident t!"mapTag")) .none))) .none))
          (.seq (.assign (.arg (.ident t!"b") .none) (.arg (.call (.ident t!"appendVarint") (.arg (.ident t!"b") (.arg (.call (.ident t!"uint64") (.arg (.ident t!"elemSize") .none)) .none))) .none))
          (.seq (.assign (.arg (.ident t!"b") .none) (.arg (.call (.sel (.ident t!"keyCodec") t!"encode") (.arg (.ident t!"b") (.arg (.ident t!"key") (.arg (.sel (.ident t!"f") t!"keyField") .none)))) .none))
          (.seq (.assign (.arg (.ident t!"b") .none) (.arg (.call (.sel (.ident t!"valCodec") t!"encode") (.arg (.ident t!"b") (.arg (.ident t!"val") (.arg (.sel (.ident t!"f") t!"valField") .none)))) .none))
          .skip))))))))) := rfl
        refine ⟨.next, ⟨mapEncodeVars p f i kc vc b.length j a', 0, m⟩, .inl rfl, ?_, ?_⟩
        · have hadd : BitVec.ofNat 64 s1 + BitVec.ofNat 64 s2 = BitVec.ofNat 64 (s1 + s2) := (BitVec.ofNat_add ..).symm
          rw [hbody]
          go_run [mapEncodeVars, mapEncodeOuter, run_codec, hx, hy, hadd, run_appendVarint, hz, hw]
        · go_run [mapEncodeVars, mapEncodeOuter, iterStep])
      (by omega) hd h
    simp only [callClosure, hbody, hps, hrs]
    generalize mapEncodeBody = B at hloop ⊢
    generalize (Expr.call (.sel (.ident t!"m") t!"HasNext") .none) = cnd at hloop ⊢
    generalize (Stmt.expr (.call (.sel (.ident t!"m") t!"Next") .none)) = pst at hloop ⊢
    simp only [mapEncodeVars, mapEncodeOuter] at hloop
    by_cases h0 : r.length = b.length
    · go_run [mapEncodeOuter, hp, execDefer, iterStep, hloop, h0]
    · have hne : ¬ BitVec.ofNat 64 r.length = BitVec.ofNat 64 b.length := fun h => h0 ((ofNat_inj (by omega) (by omega)).1 h)
      go_run [mapEncodeOuter, hp, execDefer, iterStep, hloop, hne, h0]

end Pb.Go
