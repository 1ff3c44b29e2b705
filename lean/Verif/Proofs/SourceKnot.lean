import Verif.Proofs.SourceMap
import Verif.Proofs.Enc
/-
The codecs calling each other: size and encode.
-/
namespace Pb.Go
open Tree

set_option linter.unusedSimpArgs false

theorem codecs_size {env : Env} {hit : List V → Val → Bool} {d j : Nat} {c : Codec} {args : List V} {m : Val} :
    codecs env hit d (j + 1) (some (.codec c)) t!"size" args m = codecSizeGo env (invoke library (codecs env hit d j) d 6) d args m c := by
  rw [codecs, if_pos rfl, program_eq]

theorem codecs_encode {env : Env} {hit : List V → Val → Bool} {d j : Nat} {c : Codec} {args : List V} {m : Val} :
    codecs env hit d (j + 1) (some (.codec c)) t!"encode" args m = codecEncodeGo env (invoke library (codecs env hit d j) d 6) d args m c := by
  rw [codecs, if_neg (by decide), if_pos rfl, program_eq]

theorem codecs_decode {env : Env} {hit : List V → Val → Bool} {d j : Nat} {c : Codec} {args : List V} {m : Val} :
    codecs env hit d (j + 1) (some (.codec c)) t!"decode" args m = codecDecodeGo env hit (invoke library (codecs env hit d j) d 6) d args m c := by
  rw [codecs, if_neg (by decide), if_neg (by decide), if_pos rfl, program_eq]

/-! ### scalars -/

section
variable {X : Calls} {d : Nat} {m : Val}

theorem scalar_size_runs {p : List Step} {v : Val} (s : Scalar) (f : Field) (hp : getPath p m = .ok v) :
    invoke library X d 6 none (t!"sizeOf" ++ goName s) [.ptr p .uptr, .field (some f)] m = sizeOut m (sizeNormal s v f.tag) ∧
    invoke library X d 6 none (t!"sizeOf" ++ goName s ++ t!"Required") [.ptr p .uptr, .field (some f)] m
      = sizeOut m (sizeRequired s v f.tag) ∧
    invoke library X d 6 none (t!"sizeOf" ++ goName s ++ t!"Option") [.ptr p .uptr, .field (some f)] m
      = sizeOut m (sizeOption s v f.tag) := by
  cases s
  · exact ⟨run_sizeOfBool 3 f hp, run_sizeOfBoolRequired 3 f hp, run_sizeOfBoolOption 2 f hp⟩
  · exact ⟨run_sizeOfString 3 f hp, run_sizeOfStringRequired 3 f hp, run_sizeOfStringOption 2 f hp⟩
  · exact ⟨run_sizeOfFloat32 3 f hp, run_sizeOfFloat32Required 3 f hp, run_sizeOfFloat32Option 2 f hp⟩
  · exact ⟨run_sizeOfFloat64 3 f hp, run_sizeOfFloat64Required 3 f hp, run_sizeOfFloat64Option 2 f hp⟩
  · exact ⟨run_sizeOfInt32 3 f hp, run_sizeOfInt32Required 3 f hp, run_sizeOfInt32Option 2 f hp⟩
  · exact ⟨run_sizeOfInt64 3 f hp, run_sizeOfInt64Required 3 f hp, run_sizeOfInt64Option 2 f hp⟩
  · exact ⟨run_sizeOfUint32 3 f hp, run_sizeOfUint32Required 3 f hp, run_sizeOfUint32Option 2 f hp⟩
  · exact ⟨run_sizeOfFixed32 3 f hp, run_sizeOfFixed32Required 3 f hp, run_sizeOfFixed32Option 2 f hp⟩
  · exact ⟨run_sizeOfUint64 3 f hp, run_sizeOfUint64Required 3 f hp, run_sizeOfUint64Option 2 f hp⟩
  · exact ⟨run_sizeOfFixed64 3 f hp, run_sizeOfFixed64Required 3 f hp, run_sizeOfFixed64Option 2 f hp⟩
  · exact ⟨run_sizeOfZigzag32 3 f hp, run_sizeOfZigzag32Required 3 f hp, run_sizeOfZigzag32Option 2 f hp⟩
  · exact ⟨run_sizeOfZigzag64 3 f hp, run_sizeOfZigzag64Required 3 f hp, run_sizeOfZigzag64Option 2 f hp⟩

theorem scalar_encode_runs {p : List Step} {v : Val} (s : Scalar) (b : Bytes) (f : Field) (hp : getPath p m = .ok v) :
    invoke library X d 6 none (t!"encode" ++ goName s) [.bytes (some b), .ptr p .uptr, .field (some f)] m
      = encodeOut m (encodeNormal s b v f.tag) ∧
    invoke library X d 6 none (t!"encode" ++ goName s ++ t!"Required") [.bytes (some b), .ptr p .uptr, .field (some f)] m
      = encodeOut m (encodeRequired s b v f.tag) ∧
    invoke library X d 6 none (t!"encode" ++ goName s ++ t!"Option") [.bytes (some b), .ptr p .uptr, .field (some f)] m
      = encodeOut m (encodeOption s b v f.tag) := by
  cases s
  · exact ⟨run_encodeBool 3 b f hp, run_encodeBoolRequired 3 b f hp, run_encodeBoolOption 2 b f hp⟩
  · exact ⟨run_encodeString 3 b f hp, run_encodeStringRequired 3 b f hp, run_encodeStringOption 2 b f hp⟩
  · exact ⟨run_encodeFloat32 3 b f hp, run_encodeFloat32Required 3 b f hp, run_encodeFloat32Option 2 b f hp⟩
  · exact ⟨run_encodeFloat64 3 b f hp, run_encodeFloat64Required 3 b f hp, run_encodeFloat64Option 2 b f hp⟩
  · exact ⟨run_encodeInt32 3 b f hp, run_encodeInt32Required 3 b f hp, run_encodeInt32Option 2 b f hp⟩
  · exact ⟨run_encodeInt64 3 b f hp, run_encodeInt64Required 3 b f hp, run_encodeInt64Option 2 b f hp⟩
  · exact ⟨run_encodeUint32 3 b f hp, run_encodeUint32Required 3 b f hp, run_encodeUint32Option 2 b f hp⟩
  · exact ⟨run_encodeFixed32 3 b f hp, run_encodeFixed32Required 3 b f hp, run_encodeFixed32Option 2 b f hp⟩
  · exact ⟨run_encodeUint64 3 b f hp, run_encodeUint64Required 3 b f hp, run_encodeUint64Option 2 b f hp⟩
  · exact ⟨run_encodeFixed64 3 b f hp, run_encodeFixed64Required 3 b f hp, run_encodeFixed64Option 2 b f hp⟩
  · exact ⟨run_encodeZigzag32 3 b f hp, run_encodeZigzag32Required 3 b f hp, run_encodeZigzag32Option 2 b f hp⟩
  · exact ⟨run_encodeZigzag64 3 b f hp, run_encodeZigzag64Required 3 b f hp, run_encodeZigzag64Option 2 b f hp⟩

theorem scalar_decode_runs {p : List Step} {v : Val} (s : Scalar) (b : Bytes) (hb : b.length < 2 ^ 60) (hw : Writable p)
    (hp : getPath p m = .ok v) :
    decodeOut p m (decodeScalar s b v) (invoke library X d 6 none (t!"decode" ++ goName s) [.bytes (some b), .ptr p .uptr] m) ∧
    decodeOut p m (decodeOption s b v)
      (invoke library X d 6 none (t!"decode" ++ goName s ++ t!"Option") [.bytes (some b), .ptr p .uptr] m) := by
  cases s
  · exact ⟨run_decodeBool 3 b hb hw hp, run_decodeBoolOption 2 b hb hw hp⟩
  · exact ⟨run_decodeString 3 b hb hw hp, run_decodeStringOption 2 b hb hw hp⟩
  · exact ⟨run_decodeFloat32 3 b hb hw hp, run_decodeFloat32Option 2 b hb hw hp⟩
  · exact ⟨run_decodeFloat64 3 b hb hw hp, run_decodeFloat64Option 2 b hb hw hp⟩
  · exact ⟨run_decodeInt32 3 b hb hw hp, run_decodeInt32Option 2 b hb hw hp⟩
  · exact ⟨run_decodeInt64 3 b hb hw hp, run_decodeInt64Option 2 b hb hw hp⟩
  · exact ⟨run_decodeUint32 3 b hb hw hp, run_decodeUint32Option 2 b hb hw hp⟩
  · exact ⟨run_decodeFixed32 3 b hb hw hp, run_decodeFixed32Option 2 b hb hw hp⟩
  · exact ⟨run_decodeUint64 3 b hb hw hp, run_decodeUint64Option 2 b hb hw hp⟩
  · exact ⟨run_decodeFixed64 3 b hb hw hp, run_decodeFixed64Option 2 b hb hw hp⟩
  · exact ⟨run_decodeZigzag32 3 b hb hw hp, run_decodeZigzag32Option 2 b hb hw hp⟩
  · exact ⟨run_decodeZigzag64 3 b hb hw hp, run_decodeZigzag64Option 2 b hb hw hp⟩

end

/-! ### sums and their parts -/

/-- Each part of a sum of sizes is at most the sum. -/
theorem sum_restrict {α} {f : α → Except Fault Nat} : ∀ (l : List α) (k n : Nat), sumSizes f k l = .ok n →
    ∀ x ∈ l, ∃ s, f x = .ok s ∧ s ≤ n := by
  intro l
  induction l with
  | nil => intro k n _ x hx; cases hx
  | cons y ys ih =>
    intro k n h x hx
    rw [sumSizes] at h
    cases hy : f y with
    | error e => rw [hy] at h; cases h
    | ok s =>
      rw [hy] at h
      rcases List.mem_cons.1 hx with rfl | hx
      · exact ⟨s, hy, Nat.le_trans (Nat.le_add_left s k) (sum_mono ys _ _ h)⟩
      · exact ih _ _ h x hx

theorem sum_cap {α} {f : α → Except Fault Nat} {B : Nat} : ∀ (l : List α) (k n : Nat), sumSizes f k l = .ok n → n ≤ B →
    sumSizes (fun x => match f x with
      | .ok s => if s ≤ B then .ok s else .error .confused
      | .error e => .error e) k l = .ok n := by
  intro l
  induction l with
  | nil => intro k n h _; exact h
  | cons y ys ih =>
    intro k n h hB
    rw [sumSizes] at h ⊢
    cases hy : f y with
    | error e => rw [hy] at h; cases h
    | ok s =>
      rw [hy] at h
      have := sum_mono ys _ _ h
      simp only
      rw [if_pos (by omega)]
      exact ih _ _ h hB

theorem append_cap {α} {f : Bytes → α → Except Fault Bytes} {B : Nat} (hm : ∀ b x c, f b x = .ok c → b.length ≤ c.length) :
    ∀ (l : List α) (b c : Bytes), appendAll f b l = .ok c → c.length ≤ B →
    appendAll (fun b x => match f b x with
      | .ok s => if s.length ≤ B then .ok s else .error .confused
      | .error e => .error e) b l = .ok c := by
  intro l
  induction l with
  | nil => intro k n h _; exact h
  | cons y ys ih =>
    intro b n h hB
    rw [appendAll] at h ⊢
    cases hy : f b y with
    | error e => rw [hy] at h; cases h
    | ok s =>
      rw [hy] at h
      have := append_mono hm ys _ _ h
      simp only
      rw [if_pos (by omega)]
      exact ih _ _ h hB

theorem structSize_cap {size : Codec → Val → FTag → Except Fault Nat} {fs : List Field} {w : Val} {n : Nat} (h : structSize size fs w = .ok n) :
    structSize (fun c v t => match size c v t with
      | .ok s => if s ≤ n then .ok s else .error .confused
      | .error e => .error e) fs w = .ok n := by
  have := sum_cap fs 0 n h (Nat.le_refl n)
  rw [structSize, ← this]
  congr 1
  funext f
  cases slotOf w f.offset <;> rfl

theorem structSize_parts {size : Codec → Val → FTag → Except Fault Nat} {fs : List Field} {w : Val} {n : Nat} (h : structSize size fs w = .ok n) :
    ∀ f ∈ fs, ∃ v s, slotOf w f.offset = .ok v ∧ size f.codec v f.tag = .ok s ∧ s ≤ n := by
  intro f hf
  obtain ⟨s, h1, h2⟩ := sum_restrict fs 0 n h f hf
  cases hv : slotOf w f.offset with
  | error e => simp only [hv] at h1; cases h1
  | ok v => simp only [hv] at h1; exact ⟨v, s, rfl, h1, h2⟩

theorem slotOf_getPath {p : List Step} {m w v : Val} {o : Nat} (hp : getPath p m = .ok w) (h : slotOf w o = .ok v) :
    getPath (p ++ [.slot o]) m = .ok v := by
  rw [getPath_append hp]
  cases w with
  | struct vs =>
    simp only [slotOf] at h
    simp only [getPath]
    cases hi : vs[o]? with
    | none => rw [hi] at h; cases h
    | some x => rw [hi] at h; exact h
  | _ => cases h

theorem getPath_elem {p : List Step} {m : Val} {isNil : Bool} {es sp : List Val} {i : Nat} {e : Val} (hp : getPath p m = .ok (.slice isNil es sp))
    (he : es[i]? = some e) : getPath (p ++ [.elem i]) m = .ok e := by
  rw [getPath_append hp]
  obtain ⟨hi, _⟩ := List.getElem?_eq_some_iff.1 he
  simp only [getPath, List.getElem?_append_left hi, he]

theorem getPath_key {p : List Step} {m : Val} {isNil : Bool} {es : List (Key × Val)} {i : Nat} {e : Key × Val} (hp : getPath p m = .ok (.map isNil es))
    (he : es[i]? = some e) : getPath (p ++ [.entries, .key i]) m = .ok e.1.toVal ∧ getPath (p ++ [.entries, .entry i]) m = .ok e.2 := by
  rw [getPath_append hp, getPath_append hp]
  simp only [getPath, he, and_self]

theorem below_slot {d : Nat} {w v : Val} {o : Nat} (hb : Below d w) (h : slotOf w o = .ok v) : Below d v := by
  cases w with
  | struct vs =>
    simp only [slotOf] at h
    cases hi : vs[o]? with
    | none => rw [hi] at h; cases h
    | some x =>
      rw [hi] at h; cases h
      rw [Below] at hb
      have : ∀ (l : List Val) (o : Nat), Belows d l → l[o]? = some v → Below d v := by
        intro l
        induction l with
        | nil => intro o _ h; simp at h
        | cons a l ih =>
          intro o hb h
          rw [Belows] at hb
          cases o with
          | zero => simp only [List.getElem?_cons_zero, Option.some.injEq] at h; subst h; exact hb.1
          | succ o => simp only [List.getElem?_cons_succ] at h; exact ih o hb.2 h
      exact this vs o hb hi
  | _ => cases h

theorem belows_mem {d : Nat} {v : Val} : ∀ {l : List Val}, Belows d l → v ∈ l → Below d v := by
  intro l
  induction l with
  | nil => intro _ h; cases h
  | cons a l ih =>
    intro hb h
    rw [Belows] at hb
    rcases List.mem_cons.1 h with rfl | h
    · exact hb.1
    · exact ih hb.2 h

theorem belowMap_mem {d : Nat} {e : Key × Val} : ∀ {l : List (Key × Val)}, BelowMap d l → e ∈ l → Below d e.2 := by
  intro l
  induction l with
  | nil => intro _ h; cases h
  | cons a l ih =>
    intro hb h
    rw [BelowMap] at hb
    rcases List.mem_cons.1 h with rfl | h
    · exact hb.1
    · exact ih hb.2 h

theorem below_key (d : Nat) (k : Key) : Below d k.toVal := by
  cases k <;> simp only [Key.toVal, Below]

/-! ### size -/

/-- The size function of the codec, run, gives what the model says (messages inside at most `D` deep). -/
def SizeRuns (env : Env) (hit : List V → Val → Bool) (d D : Nat) (c : Codec) : Prop :=
  ∃ N, ∀ j, N ≤ j → ∀ (p : List Step) (v : Val) (f : Field) (s : Nat) (m : Val), getPath p m = .ok v → Below d v →
    codecSize (sizeMsg env D) c v f.tag = .ok s → s < 2 ^ 64 →
    codecs env hit d j (some (.codec c)) t!"size" [.ptr p .uptr, .field (some f)] m = .ok ([.int (BitVec.ofNat 64 s)], m)

def SizeMsgRuns (env : Env) (hit : List V → Val → Bool) (d D : Nat) (t : TypeId) : Prop :=
  ∃ N, ∀ j, N ≤ j → ∀ (p : List Step) (v : Val) (s : Nat) (m : Val), getPath p m = .ok v → Below d v →
    sizeMsg env D t v = .ok s → s < 2 ^ 64 →
    invoke library (codecs env hit d j) d 6 (some (.info (env t).fields)) t!"size" [.ptr p .uptr] m = .ok ([.int (BitVec.ofNat 64 s)], m)

/-- A bound for all elements of a list. -/
theorem bound_all {α} {P : Nat → α → Prop} : ∀ (l : List α), (∀ x ∈ l, ∃ N, ∀ j, N ≤ j → P j x) → ∃ N, ∀ j, N ≤ j → ∀ x ∈ l, P j x := by
  intro l
  induction l with
  | nil => intro _; exact ⟨0, fun _ _ _ h => nomatch h⟩
  | cons y ys ih =>
    intro h
    obtain ⟨N1, h1⟩ := h y (List.mem_cons_self ..)
    obtain ⟨N2, h2⟩ := ih fun x hx => h x (List.mem_cons_of_mem _ hx)
    refine ⟨max N1 N2, fun j hj x hx => ?_⟩
    rcases List.mem_cons.1 hx with rfl | hx
    · exact h1 j (by omega)
    · exact h2 j (by omega) x hx

theorem scalar_size {env : Env} {hit : List V → Val → Bool} {d j : Nat} {p : List Step} {v m : Val} {rec : TypeId → Val → Except Fault Nat} {c : Codec} (f : Field) {n : Nat}
    (hc : (∃ s, c = .normal s ∨ c = .required s ∨ c = .option s) ∨ c = .bytes) (hp : getPath p m = .ok v) (h : codecSize rec c v f.tag = .ok n) :
    codecs env hit d (j + 1) (some (.codec c)) t!"size" [.ptr p .uptr, .field (some f)] m = .ok ([.int (BitVec.ofNat 64 n)], m) := by
  rw [codecs_size]
  rcases hc with ⟨s, rfl | rfl | rfl⟩ | rfl
  · simp only [codecSize] at h
    simp only [codecSizeGo, (scalar_size_runs s f hp).1, h]; rfl
  · simp only [codecSize] at h
    simp only [codecSizeGo, (scalar_size_runs s f hp).2.1, h]; rfl
  · simp only [codecSize] at h
    simp only [codecSizeGo, (scalar_size_runs s f hp).2.2, h]; rfl
  · simp only [codecSize] at h
    simp only [codecSizeGo, run_sizeOfBytes 3 f hp, h]; rfl

theorem size_codec {env : Env} {hit : List V → Val → Bool} {d D : Nat} (hd : d ≤ 2 ^ 62) (hrec : ∀ t, SizeMsgRuns env hit d D t) : ∀ c, SizeRuns env hit d D c := by
  intro c
  induction c with
  | normal s =>
    refine ⟨1, fun j hj p v f n m hp _ h _ => ?_⟩
    obtain ⟨j, rfl⟩ : ∃ i, j = i + 1 := ⟨j - 1, by omega⟩
    exact scalar_size f (.inl ⟨s, .inl rfl⟩) hp h
  | required s =>
    refine ⟨1, fun j hj p v f n m hp _ h _ => ?_⟩
    obtain ⟨j, rfl⟩ : ∃ i, j = i + 1 := ⟨j - 1, by omega⟩
    exact scalar_size f (.inl ⟨s, .inr (.inl rfl)⟩) hp h
  | option s =>
    refine ⟨1, fun j hj p v f n m hp _ h _ => ?_⟩
    obtain ⟨j, rfl⟩ : ∃ i, j = i + 1 := ⟨j - 1, by omega⟩
    exact scalar_size f (.inl ⟨s, .inr (.inr rfl)⟩) hp h
  | bytes =>
    refine ⟨1, fun j hj p v f n m hp _ h _ => ?_⟩
    obtain ⟨j, rfl⟩ : ∃ i, j = i + 1 := ⟨j - 1, by omega⟩
    exact scalar_size f (.inr rfl) hp h
  | ptr z c ih =>
    obtain ⟨N, ih⟩ := ih
    refine ⟨N + 1, fun j hj p v f n m hp hb h hn => ?_⟩
    obtain ⟨j, rfl⟩ : ∃ i, j = i + 1 := ⟨j - 1, by omega⟩
    rw [codecs_size]
    simp only [codecSizeGo, runText, parse_pointerSize]
    simp only [codecSize] at h
    cases v with
    | nilp => cases h; exact run_pointerSize_nil 5 _ f hp
    | ptr w =>
      exact run_pointerSize 5 hp (ih j (by omega) _ w f n m (by rw [getPath_append hp]; rfl) (by simpa only [Below] using hb) h hn)
    | _ => cases h
  | msg t =>
    obtain ⟨N, ih⟩ := hrec t
    refine ⟨N + 1, fun j hj p v f n m hp hb h hn => ?_⟩
    obtain ⟨j, rfl⟩ : ∃ i, j = i + 1 := ⟨j - 1, by omega⟩
    rw [codecs_size]
    simp only [codecSizeGo, runText, parse_messageSize]
    simp only [codecSize] at h
    cases v with
    | nilp => cases h; exact run_messageSize_nil 5 f hp
    | ptr w =>
      cases hw : sizeMsg env D t w with
      | error e => simp only [hw] at h; cases h
      | ok s =>
        simp only [hw] at h
        cases h
        exact run_messageSize 5 hp (ih j (by omega) _ w s m (by rw [getPath_append hp]; rfl) (by simpa only [Below] using hb) hw (by omega))
    | _ => cases h
  | slice z c ih =>
    obtain ⟨N, ih⟩ := ih
    refine ⟨N + 1, fun j hj p v f n m hp hb h hn => ?_⟩
    obtain ⟨j, rfl⟩ : ∃ i, j = i + 1 := ⟨j - 1, by omega⟩
    rw [codecs_size]
    simp only [codecSizeGo, runText, parse_sliceSize]
    simp only [codecSize] at h
    cases v with
    | slice isNil es sp =>
      simp only [Below] at hb
      refine run_sliceSize 5 hp (by omega) hb.1 ?_ h
      intro i e s he hs hle
      exact ih j (by omega) _ e f s m (getPath_elem hp he) (belows_mem hb.2 (List.mem_of_getElem? he)) hs (by omega)
    | _ => cases h
  | map i kc vc kd vd ihk ihv _ _ =>
    obtain ⟨N1, ihk⟩ := ihk
    obtain ⟨N2, ihv⟩ := ihv
    refine ⟨max N1 N2 + 1, fun j hj p v f n m hp hb h hn => ?_⟩
    obtain ⟨j, rfl⟩ : ∃ i, j = i + 1 := ⟨j - 1, by omega⟩
    rw [codecs_size]
    simp only [codecSizeGo, runText, parse_mapSize]
    simp only [codecSize] at h
    cases v with
    | map isNil es =>
      simp only [Below] at hb
      cases hs : sumSizes (fun (e : Key × Val) => do
        let keySize ← codecSize (sizeMsg env D) kc e.1.toVal i.key
        let valSize ← codecSize (sizeMsg env D) vc e.2 i.val
        return sizeOfVarint i.wiretag + sizeOfVarint (BitVec.ofNat 64 (keySize + valSize)) + keySize + valSize) 0 es with
      | error e => simp only [hs] at h; cases h
      | ok s =>
        simp only [hs] at h
        have hns : n = if s = 0 then sizeOfVarint i.wiretag + 1 else s := by
          by_cases h0 : s = 0
          · subst h0; cases h; rfl
          · simp only [bind, Except.bind, if_neg h0, pure, Except.pure] at h
            cases h; rw [if_neg h0]
        have hlt : s < 2 ^ 64 := by
          by_cases h0 : s = 0
          · omega
          · rw [if_neg h0] at hns; omega
        rw [hns]
        refine run_mapSize 5 (ks := fun v => codecSize (sizeMsg env D) kc v i.key) (vs := fun v => codecSize (sizeMsg env D) vc v i.val) hp hb.1 hb.2.1 hlt ?_ ?_ hs
        · intro a e s he hs hle
          exact ihk j (by omega) _ _ ⟨0, i.key, kc⟩ s m (getPath_key hp he).1 (below_key _ _) hs (by omega)
        · intro a e s he hs hle
          exact ihv j (by omega) _ _ ⟨0, i.val, vc⟩ s m (getPath_key hp he).2 (belowMap_mem hb.2.2 (List.mem_of_getElem? he)) hs (by omega)
    | _ => cases h

theorem size_msg {env : Env} {hit : List V → Val → Bool} {d : Nat} (hd : d ≤ 2 ^ 62) : ∀ D t, SizeMsgRuns env hit d D t := by
  intro D
  induction D with
  | zero => intro t; exact ⟨0, fun _ _ _ _ _ _ _ _ h _ => by simp only [sizeMsg] at h; cases h⟩
  | succ D ih =>
    intro t
    obtain ⟨N, hN⟩ := bound_all (P := fun j (f : Field) => ∀ (p : List Step) (v : Val) (f' : Field) (s : Nat) (m : Val), getPath p m = .ok v → Below d v →
      codecSize (sizeMsg env D) f.codec v f'.tag = .ok s → s < 2 ^ 64 →
      codecs env hit d j (some (.codec f.codec)) t!"size" [.ptr p .uptr, .field (some f')] m = .ok ([.int (BitVec.ofNat 64 s)], m)) (env t).fields
      (fun f _ => size_codec hd ih f.codec)
    refine ⟨N, fun j hj p v s m hp hb h hs => ?_⟩
    rw [sizeMsg] at h
    refine run_size 4 ?_ (structSize_cap h)
    intro f hf w n hw hn
    cases hx : codecSize (sizeMsg env D) f.codec w f.tag with
    | error e => simp only [hx] at hn; cases hn
    | ok x =>
      simp only [hx] at hn
      split at hn
      · next hle =>
        cases hn
        exact hN j hj f hf _ w f _ m (slotOf_getPath hp hw) (below_slot hb hw) hx (by omega)
      · cases hn

/-! ### encode -/

theorem acc_le {b c : Bytes} {r : Except Fault Bytes} (h : acc b r = .ok c) : b.length ≤ c.length := by
  cases r with
  | error e => cases h
  | ok a => cases h; simp

theorem encode_le {env : Env} {D : Nat} {c : Codec} {b b' : Bytes} {v : Val} {f : FTag}
    (h : codecEncode (sizeMsg env D) (encodeMsg env D) c b v f = .ok b') : b.length ≤ b'.length := by
  rw [codecEncode_eq _ _ (fun t v => encodeMsg env D t [] v) (encodeMsg_acc env D)] at h
  exact acc_le h

theorem structEncode_cap {enc : Codec → Bytes → Val → FTag → Except Fault Bytes} {fs : List Field} {w : Val} {b c : Bytes}
    (hm : ∀ x b v f c, enc x b v f = .ok c → b.length ≤ c.length) (h : structEncode enc fs b w = .ok c) :
    structEncode (fun x b v t => match enc x b v t with
      | .ok s => if s.length ≤ c.length then .ok s else .error .confused
      | .error e => .error e) fs b w = .ok c := by
  have := append_cap (B := c.length) (by
    intro b (x : Field) c h
    cases hv : slotOf w x.offset with
    | error e => simp only [hv] at h; cases h
    | ok v => simp only [hv] at h; exact hm _ _ _ _ _ h) fs b c h (Nat.le_refl _)
  rw [structEncode, ← this]
  congr 1
  funext b f
  cases slotOf w f.offset <;> rfl

/-- The encode function of the codec, run, gives what the model says (messages inside at most `D` deep). -/
def EncRuns (env : Env) (hit : List V → Val → Bool) (d D : Nat) (c : Codec) : Prop :=
  ∃ N, ∀ j, N ≤ j → ∀ (p : List Step) (v : Val) (f : Field) (b b' : Bytes) (s : Nat) (m : Val), getPath p m = .ok v → Below d v →
    codecSize (sizeMsg env D) c v f.tag = .ok s → s < 2 ^ 64 →
    codecEncode (sizeMsg env D) (encodeMsg env D) c b v f.tag = .ok b' → b'.length < 2 ^ 63 →
    codecs env hit d j (some (.codec c)) t!"encode" [.bytes (some b), .ptr p .uptr, .field (some f)] m = .ok ([.bytes (some b')], m)

def EncMsgRuns (env : Env) (hit : List V → Val → Bool) (d D : Nat) (t : TypeId) : Prop :=
  ∃ N, ∀ j, N ≤ j → ∀ (p : List Step) (v : Val) (b b' : Bytes) (s : Nat) (m : Val), getPath p m = .ok v → Below d v →
    sizeMsg env D t v = .ok s → s < 2 ^ 64 → encodeMsg env D t b v = .ok b' → b'.length < 2 ^ 63 →
    invoke library (codecs env hit d j) d 6 (some (.info (env t).fields)) t!"encode" [.bytes (some b), .ptr p .uptr] m = .ok ([.bytes (some b')], m)

theorem scalar_encode {env : Env} {hit : List V → Val → Bool} {d j : Nat} {p : List Step} {v m : Val} {sz : TypeId → Val → Except Fault Nat}
    {rec : TypeId → Bytes → Val → Except Fault Bytes} {c : Codec} (f : Field) {b b' : Bytes}
    (hc : (∃ s, c = .normal s ∨ c = .required s ∨ c = .option s) ∨ c = .bytes) (hp : getPath p m = .ok v) (h : codecEncode sz rec c b v f.tag = .ok b') :
    codecs env hit d (j + 1) (some (.codec c)) t!"encode" [.bytes (some b), .ptr p .uptr, .field (some f)] m = .ok ([.bytes (some b')], m) := by
  rw [codecs_encode]
  rcases hc with ⟨s, rfl | rfl | rfl⟩ | rfl
  · simp only [codecEncode] at h
    simp only [codecEncodeGo, (scalar_encode_runs s b f hp).1, h]; rfl
  · simp only [codecEncode] at h
    simp only [codecEncodeGo, (scalar_encode_runs s b f hp).2.1, h]; rfl
  · simp only [codecEncode] at h
    simp only [codecEncodeGo, (scalar_encode_runs s b f hp).2.2, h]; rfl
  · simp only [codecEncode] at h
    simp only [codecEncodeGo, run_encodeBytes 3 b f hp, h]; rfl

theorem enc_codec {env : Env} {hit : List V → Val → Bool} {d D : Nat} (hd : d ≤ 2 ^ 62) (hrec : ∀ t, EncMsgRuns env hit d D t) : ∀ c, ScalarKeys c → EncRuns env hit d D c := by
  intro c
  induction c with
  | normal s =>
    intro _
    refine ⟨1, fun j hj p v f b b' n m hp _ _ _ h _ => ?_⟩
    obtain ⟨j, rfl⟩ : ∃ i, j = i + 1 := ⟨j - 1, by omega⟩
    exact scalar_encode f (.inl ⟨s, .inl rfl⟩) hp h
  | required s =>
    intro _
    refine ⟨1, fun j hj p v f b b' n m hp _ _ _ h _ => ?_⟩
    obtain ⟨j, rfl⟩ : ∃ i, j = i + 1 := ⟨j - 1, by omega⟩
    exact scalar_encode f (.inl ⟨s, .inr (.inl rfl)⟩) hp h
  | option s =>
    intro _
    refine ⟨1, fun j hj p v f b b' n m hp _ _ _ h _ => ?_⟩
    obtain ⟨j, rfl⟩ : ∃ i, j = i + 1 := ⟨j - 1, by omega⟩
    exact scalar_encode f (.inl ⟨s, .inr (.inr rfl)⟩) hp h
  | bytes =>
    intro _
    refine ⟨1, fun j hj p v f b b' n m hp _ _ _ h _ => ?_⟩
    obtain ⟨j, rfl⟩ : ∃ i, j = i + 1 := ⟨j - 1, by omega⟩
    exact scalar_encode f (.inr rfl) hp h
  | ptr z c ih =>
    intro hk
    obtain ⟨N, ih⟩ := ih hk
    refine ⟨N + 1, fun j hj p v f b b' n m hp hb hs hn h hl => ?_⟩
    obtain ⟨j, rfl⟩ : ∃ i, j = i + 1 := ⟨j - 1, by omega⟩
    rw [codecs_encode]
    simp only [codecEncodeGo, runText, parse_pointerEncode]
    simp only [codecEncode] at h
    simp only [codecSize] at hs
    cases v with
    | nilp => cases h; exact run_pointerEncode_nil 5 _ _ f hp
    | ptr w =>
      exact run_pointerEncode 5 hp (ih j (by omega) _ w f b b' n m (by rw [getPath_append hp]; rfl) (by simpa only [Below] using hb) hs hn h hl)
    | _ => cases h
  | msg t =>
    intro _
    obtain ⟨N, ih⟩ := hrec t
    obtain ⟨N', ihs⟩ := size_msg (env := env) hd D t
    refine ⟨max N N' + 1, fun j hj p v f b b' n m hp hb hs hn h hl => ?_⟩
    obtain ⟨j, rfl⟩ : ∃ i, j = i + 1 := ⟨j - 1, by omega⟩
    rw [codecs_encode]
    simp only [codecEncodeGo, runText, parse_messageEncode]
    simp only [codecEncode] at h
    simp only [codecSize] at hs
    cases v with
    | nilp => cases h; exact run_messageEncode_nil 5 _ f hp
    | ptr w =>
      cases hw : sizeMsg env D t w with
      | error e => simp only [hw] at h; cases h
      | ok s =>
        simp only [hw] at h hs
        cases hs
        have hpw : getPath (p ++ [.deref]) m = .ok w := by rw [getPath_append hp]; rfl
        have hbw : Below d w := by simpa only [Below] using hb
        exact run_messageEncode 5 hp (ihs j (by omega) _ w s m hpw hbw hw (by omega))
          (ih j (by omega) _ w _ b' s m hpw hbw hw (by omega) h hl)
    | _ => cases h
  | slice z c ih =>
    intro hk
    obtain ⟨N, ih⟩ := ih hk
    refine ⟨N + 1, fun j hj p v f b b' n m hp hb hs hn h hl => ?_⟩
    obtain ⟨j, rfl⟩ : ∃ i, j = i + 1 := ⟨j - 1, by omega⟩
    rw [codecs_encode]
    simp only [codecEncodeGo, runText, parse_sliceEncode]
    simp only [codecEncode] at h
    simp only [codecSize] at hs
    cases v with
    | slice isNil es sp =>
      simp only [Below] at hb
      refine run_sliceEncode 5 (enc := fun b e => codecEncode (sizeMsg env D) (encodeMsg env D) c b e f.tag) hp (by omega) hb.1 (fun _ _ _ => encode_le) ?_ h
      intro i e b c' he hx hle
      have hmem := List.mem_of_getElem? he
      obtain ⟨s, hs1, hs2⟩ := sum_restrict es 0 n hs e hmem
      exact ih j (by omega) _ e f b c' s m (getPath_elem hp he) (belows_mem hb.2 hmem) hs1 (by omega) hx (by omega)
    | _ => cases h
  | map i kc vc kd vd ihk ihv _ _ =>
    intro hk
    obtain ⟨⟨sc, hsc⟩, hkv⟩ := hk
    obtain ⟨N2, ihv⟩ := ihv hkv
    refine ⟨max 1 N2 + 1, fun j hj p v f b b' n m hp hb hs hn h hl => ?_⟩
    obtain ⟨j, rfl⟩ : ∃ i, j = i + 1 + 1 := ⟨j - 2, by omega⟩
    rw [codecs_encode]
    simp only [codecEncodeGo, runText, parse_mapEncode]
    simp only [codecEncode] at h
    simp only [codecSize] at hs
    have hscl : (∃ s, kc = .normal s ∨ kc = .required s ∨ kc = .option s) ∨ kc = .bytes := by
      rcases hsc with h | h
      · exact .inl ⟨sc, .inl h⟩
      · exact .inl ⟨sc, .inr (.inl h)⟩
    cases v with
    | map isNil es =>
      simp only [Below] at hb
      cases hsum : sumSizes (fun (e : Key × Val) => do
        let keySize ← codecSize (sizeMsg env D) kc e.1.toVal i.key
        let valSize ← codecSize (sizeMsg env D) vc e.2 i.val
        return sizeOfVarint i.wiretag + sizeOfVarint (BitVec.ofNat 64 (keySize + valSize)) + keySize + valSize) 0 es with
      | error e => simp only [hsum] at hs; cases hs
      | ok s =>
        simp only [hsum] at hs
        have hlt : s < 2 ^ 64 := by
          by_cases h0 : s = 0
          · omega
          · simp only [bind, Except.bind, if_neg h0, pure, Except.pure] at hs
            cases hs; omega
        cases happ : appendAll (fun b (e : Key × Val) => do
          let keySize ← codecSize (sizeMsg env D) kc e.1.toVal i.key
          let valSize ← codecSize (sizeMsg env D) kc e.2 i.val
          let elemSize := keySize + valSize
          let b := b ++ appendVarint [] i.wiretag
          let b := appendVarint b (BitVec.ofNat 64 elemSize)
          let b ← codecEncode (sizeMsg env D) (encodeMsg env D) kc b e.1.toVal i.key
          codecEncode (sizeMsg env D) (encodeMsg env D) vc b e.2 i.val) b es with
        | error e => simp only [happ] at h; cases h
        | ok r =>
          simp only [happ] at h
          have hbr : b' = if r.length = b.length then r ++ (appendVarint [] i.wiretag ++ [0#8]) else r := by
            by_cases h0 : r.length = b.length
            · simp only [bind, Except.bind, if_pos h0, pure, Except.pure] at h
              cases h; rw [if_pos h0]
            · simp only [bind, Except.bind, if_neg h0, pure, Except.pure] at h
              cases h; rw [if_neg h0]
          have hrl : r.length < 2 ^ 63 := by
            rw [hbr] at hl
            split at hl
            · rw [List.length_append] at hl; omega
            · exact hl
          rw [hbr]
          refine run_mapEncode 5 (ks := fun v => codecSize (sizeMsg env D) kc v i.key) (vs := fun v => codecSize (sizeMsg env D) kc v i.val)
            (ke := fun b v => codecEncode (sizeMsg env D) (encodeMsg env D) kc b v i.key)
            (ve := fun b v => codecEncode (sizeMsg env D) (encodeMsg env D) vc b v i.val) hp hb.1 hb.2.1 hrl (fun _ _ _ => encode_le)
            (fun _ _ _ => encode_le) ?_ ?_ ?_ ?_ happ
          · intro a e s he hs
            exact scalar_size ⟨0, i.key, kc⟩ hscl (getPath_key hp he).1 hs
          · intro a e s he hs
            exact scalar_size ⟨0, i.val, vc⟩ hscl (getPath_key hp he).2 hs
          · intro a e b c he hx _
            exact scalar_encode ⟨0, i.key, kc⟩ hscl (getPath_key hp he).1 hx
          · intro a e b c he hx hle
            have hmem := List.mem_of_getElem? he
            obtain ⟨s', hs1, hs2⟩ := sum_restrict es 0 s hsum e hmem
            cases hks : codecSize (sizeMsg env D) kc e.1.toVal i.key with
            | error x => simp only [hks] at hs1; cases hs1
            | ok ks =>
              cases hvs : codecSize (sizeMsg env D) vc e.2 i.val with
              | error x => simp only [hks, hvs] at hs1; cases hs1
              | ok vs =>
                simp only [hks, hvs, bind, Except.bind, pure, Except.pure, Except.ok.injEq] at hs1
                exact ihv (j + 1) (by omega) _ _ ⟨0, i.val, vc⟩ b c vs m (getPath_key hp he).2 (belowMap_mem hb.2.2 hmem) hvs (by omega) hx (by omega)
    | _ => cases h

theorem enc_msg {env : Env} {hit : List V → Val → Bool} {d : Nat} (hd : d ≤ 2 ^ 62) (hk : ∀ t, ∀ f ∈ (env t).fields, ScalarKeys f.codec) : ∀ D t, EncMsgRuns env hit d D t := by
  intro D
  induction D with
  | zero => intro t; exact ⟨0, fun _ _ _ _ _ _ _ _ _ _ h _ _ _ => by simp only [sizeMsg] at h; cases h⟩
  | succ D ih =>
    intro t
    obtain ⟨N, hN⟩ := bound_all (P := fun j (f : Field) => ∀ (p : List Step) (v : Val) (f' : Field) (b b' : Bytes) (s : Nat) (m : Val), getPath p m = .ok v → Below d v →
      codecSize (sizeMsg env D) f.codec v f'.tag = .ok s → s < 2 ^ 64 →
      codecEncode (sizeMsg env D) (encodeMsg env D) f.codec b v f'.tag = .ok b' → b'.length < 2 ^ 63 →
      codecs env hit d j (some (.codec f.codec)) t!"encode" [.bytes (some b), .ptr p .uptr, .field (some f')] m = .ok ([.bytes (some b')], m)) (env t).fields
      (fun f hf => enc_codec hd ih f.codec (hk t f hf))
    refine ⟨N, fun j hj p v b b' s m hp hb hs hlt h hl => ?_⟩
    rw [sizeMsg] at hs
    rw [encodeMsg] at h
    refine run_encode 4 ?_ (structEncode_cap (fun _ _ _ _ _ => encode_le) h)
    intro f hf b w c hw hn
    obtain ⟨w', s', hw', hs', hle⟩ := structSize_parts hs f hf
    rw [hw] at hw'
    cases hw'
    cases hx : codecEncode (sizeMsg env D) (encodeMsg env D) f.codec b w f.tag with
    | error e => simp only [hx] at hn; cases hn
    | ok x =>
      simp only [hx] at hn
      split at hn
      · next hle' =>
        cases hn
        exact hN j hj f hf _ w f b _ s' m (slotOf_getPath hp hw) (below_slot hb hw) hs' (by omega) hx (by omega)
      · cases hn

end Pb.Go
