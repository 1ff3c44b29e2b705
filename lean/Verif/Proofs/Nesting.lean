import Verif.Proofs.CostChain
import Verif.Proofs.Memory
/-
Lemmas for C66: how deep decoding nests messages.
-/
namespace Pb
open Spec

mutual
theorem nesting_deep : ∀ v : Val, v.nesting ≤ v.deep
  | .opt _ v => by simpa only [Val.nesting, Val.deep] using nesting_deep v
  | .ptr v => by simpa only [Val.nesting, Val.deep] using nesting_deep v
  | .struct fs => by
    have := nesting_deepL fs
    simp only [Val.nesting, Val.deep]
    omega
  | .slice _ es sp => by
    have := nesting_deepL es
    simp only [Val.nesting, Val.deep]
    omega
  | .map _ m => by simpa only [Val.nesting, Val.deep] using nesting_deepM m
  | .b8 _ | .w32 _ | .w64 _ | .str _ | .bytes _ | .nilp | .opaque _ => by simp [Val.nesting]
theorem nesting_deepL : ∀ vs : List Val, Val.nestingL vs ≤ Val.deepL vs
  | [] => by simp [Val.nestingL]
  | v :: vs => by
    have := nesting_deep v
    have := nesting_deepL vs
    simp only [Val.nestingL, Val.deepL]
    omega
theorem nesting_deepM : ∀ m : List (Key × Val), Val.nestingM m ≤ Val.deepM m
  | [] => by simp [Val.nestingM]
  | (_, v) :: vs => by
    have := nesting_deep v
    have := nesting_deepM vs
    simp only [Val.nestingM, Val.deepM]
    omega
end

theorem deep_zero (s : Shape) : (Shape.zero s).deep = 0 := by
  induction s with
  | opt s ih => simpa [Shape.zero, Val.deep] using ih
  | _ => simp [Shape.zero, Val.deep, Val.deepL, Val.deepM]

theorem deepL_le {N : Nat} {vs : List Val} : Val.deepL vs ≤ N ↔ ∀ v ∈ vs, v.deep ≤ N := by
  induction vs with
  | nil => simp [Val.deepL]
  | cons v vs ih => simp only [Val.deepL, List.mem_cons, forall_eq_or_imp, ← ih]; omega

theorem deepM_assign {N : Nat} (m : List (Key × Val)) (k : Key) (v : Val) (hm : Val.deepM m ≤ N) (hv : v.deep ≤ N) :
    Val.deepM (mapAssign m k v) ≤ N := by
  induction m with
  | nil => simp only [mapAssign, Val.deepM]; omega
  | cons e m ih =>
    obtain ⟨k0, v0⟩ := e
    simp only [Val.deepM] at hm
    simp only [mapAssign]
    split
    · simp only [Val.deepM]; omega
    · have := ih (by omega)
      simp only [Val.deepM]; omega

/-- The value left behind is nested at most `N` deep. -/
def DeepRes (N : Nat) : DRes → Prop
  | .ok v _ => v.deep ≤ N
  | .err v _ => v.deep ≤ N

theorem deepRes_mk {N : Nat} {w : Val} (hw : w.deep ≤ N) (n : Nat) (e : Option Err) : DeepRes N (DRes.mk w n e) := by
  cases e <;> exact hw

theorem scalar_deep (N : Nat) (s : Scalar) (b : Bytes) (v : Val) (hv : v.deep ≤ N) : Returns (decodeScalar s b v) (DeepRes N) := by
  intro r h
  cases s <;> simp only [decodeScalar, bind, Except.bind, pure, Except.pure] at h
  case bool =>
    cases b with
    | nil => cases h; exact hv
    | cons c cs =>
      cases v <;> simp [writeB8] at h
      subst h; simp [DeepRes, Val.deep]
  case string =>
    rcases hdv : decodeVarlen b with e | ⟨d, n, e⟩ <;> rw [hdv] at h
    · cases h
    · simp only at h
      cases v with
      | str x =>
        simp only [writeStr] at h
        split at h <;> cases h <;> exact deepRes_mk (by simp [Val.deep]) _ _
      | _ => simp only [writeStr] at h; split at h <;> cases h
  all_goals
    cases v <;> simp only [write32, write64] at h <;> cases h
    exact deepRes_mk (by simp [Val.deep]) _ _

theorem bytes_deep (N : Nat) (b : Bytes) (v : Val) : Returns (decodeBytes b v) (DeepRes N) := by
  cases v with
  | bytes o =>
    simp only [decodeBytes, bind, Except.bind, pure, Except.pure]
    rcases decodeVarlen b with e | ⟨d, n, e⟩
    · exact returns_error
    · exact returns_ok (deepRes_mk (by simp [Val.deep]) _ _)
  | _ =>
    simp only [decodeBytes, bind, Except.bind]
    rcases decodeVarlen b with e | ⟨d, n, e⟩ <;> exact returns_error

theorem loop_deep {N : Nat} {idx : Nat → Option DField} (b : Bytes)
    (hi : ∀ k f, idx k = some f → ∀ d v, v.deep ≤ N → Returns (f.dec d v) (DeepRes N)) :
    ∀ fuel offset vs, Val.deepL vs ≤ N → Returns (structLoop idx b fuel offset vs) (DeepRes (1 + N)) := by
  intro fuel
  induction fuel with
  | zero =>
    intro offset vs h
    unfold structLoop
    split
    · exact returns_error
    · exact returns_ok (by simp only [DeepRes, Val.deep]; omega)
  | succ fuel ih =>
    intro offset vs h
    have hvs : (Val.struct vs).deep ≤ 1 + N := by simp only [Val.deep]; omega
    unfold structLoop
    split
    · refine returns_lift fun rest _ => ?_
      rcases decodeTag rest with ⟨num, wt, n, _ | e⟩
      · simp only
        cases hidx : idx num with
        | none =>
          simp only
          refine returns_lift fun r _ => ?_
          rcases r with ⟨o', _ | e⟩
          · exact ih _ _ h
          · exact returns_ok hvs
        | some f =>
          simp only
          split
          · exact returns_ok hvs
          · refine returns_lift fun r _ => ?_
            cases r with
            | error e => exact returns_ok hvs
            | ok data =>
              refine returns_lift fun v hv => ?_
              have hmem := List.mem_of_getElem? (slotOf_inv hv)
              refine returns_bind (hi _ _ hidx data v (deepL_le.mp h v hmem)) fun r hr => ?_
              have hset : ∀ w : Val, w.deep ≤ N → Val.deepL (vs.set f.offset w) ≤ N := by
                intro w hw
                refine deepL_le.mpr fun x hx => ?_
                rcases List.mem_or_eq_of_mem_set hx with hx | rfl
                · exact deepL_le.mp h x hx
                · exact hw
              cases r with
              | ok w n => exact ih _ _ (hset w hr)
              | err w e =>
                refine returns_ok ?_
                have := hset w hr
                simp only [DeepRes, Val.deep]; omega
      · exact returns_ok hvs
    · exact returns_ok hvs

theorem struct_deep {N : Nat} {fs : List DField} (hi : ∀ f ∈ fs, ∀ d v, v.deep ≤ N → Returns (f.dec d v) (DeepRes N)) (b : Bytes)
    (v : Val) (hv : v.deep ≤ 1 + N) : Returns (structDecode fs b v) (DeepRes (1 + N)) := by
  unfold structDecode
  cases v with
  | struct vs =>
    refine loop_deep b (fun k f hf => ?_) _ _ vs (by simp only [Val.deep] at hv; omega)
    rw [fieldIndex_eq] at hf
    exact hi f (by simpa using List.mem_of_find?_eq_some hf)
  | _ => exact returns_error

theorem codec_deep {N : Nat} (zeros : TypeId → Val) (rec : TypeId → Bytes → Val → Except Fault DRes)
    (hz : ∀ t, (zeros t).deep ≤ N) (hrec : ∀ t b v, v.deep ≤ N → Returns (rec t b v) (DeepRes N)) :
    ∀ c : Codec, c.WF → ∀ b v, v.deep ≤ N → Returns (codecDecode zeros rec c b v) (DeepRes N) := by
  intro c
  induction c with
  | normal s | required s => exact fun _ b v hv => scalar_deep N s b v hv
  | option s =>
    intro _ b v hv
    cases v with
    | opt o w =>
      refine returns_bind (scalar_deep N s b w (by simpa only [Val.deep] using hv)) fun r hr => returns_ok ?_
      cases r <;> simpa only [DeepRes, DRes.wrap, Val.deep] using hr
    | _ => exact returns_error
  | bytes => exact fun _ b v _ => bytes_deep N b v
  | ptr zero c ih =>
    intro hwf b v hv
    obtain ⟨rfl, hwf⟩ := hwf
    cases v with
    | nilp =>
      refine returns_bind (ih hwf b _ (by rw [deep_zero]; omega)) fun r hr => returns_ok ?_
      cases r <;> simpa only [DeepRes, DRes.wrap, Val.deep] using hr
    | ptr w =>
      refine returns_bind (ih hwf b w (by simpa only [Val.deep] using hv)) fun r hr => returns_ok ?_
      cases r <;> simpa only [DeepRes, DRes.wrap, Val.deep] using hr
    | _ => exact returns_error
  | msg t =>
    intro _ b v hv
    have key : ∀ w : Val, w.deep ≤ N → Returns
        (match decodeVarint b with
          | (_, n, err) =>
            match err with
            | some e => pure (DRes.err (.ptr w) e)
            | none => do
              match ← rec t (← goFrom b n) w with
              | .ok v l => return .ok (.ptr v) (n + l)
              | .err v e => return .err (.ptr v) e) (DeepRes N) := by
      intro w hw
      rcases decodeVarint b with ⟨l, n, _ | e⟩
      · refine returns_lift fun rest _ => ?_
        refine returns_bind (hrec t rest w hw) fun r hr => ?_
        cases r <;> refine returns_ok ?_ <;> simpa only [DeepRes, Val.deep] using hr
      · exact returns_ok (by simpa only [DeepRes, Val.deep] using hw)
    unfold codecDecode
    cases v with
    | nilp => exact key _ (hz t)
    | ptr v => exact key _ (by simpa only [Val.deep] using hv)
    | _ => exact returns_error
  | slice zero c ih =>
    intro hwf b v hv
    obtain ⟨rfl, hwf⟩ := hwf
    unfold codecDecode
    cases v with
    | slice isNil es spare =>
      simp only [Val.deep] at hv
      have hg : ∀ x ∈ growIfFull c.shape.zero es spare, x.deep ≤ N := by
        intro x hx
        unfold growIfFull at hx
        split at hx
        · rw [List.eq_of_mem_replicate hx, deep_zero]; omega
        · exact deepL_le.mp (by omega : Val.deepL spare ≤ N) x hx
      simp only
      generalize growIfFull c.shape.zero es spare = g at hg
      have hes : Val.deepL es ≤ N := by omega
      cases g with
      | nil => exact returns_error
      | cons slot sp =>
        have hsp : Val.deepL sp ≤ N := deepL_le.mpr fun x hx => hg x (by simp [hx])
        refine returns_bind (ih hwf b slot (hg slot (by simp))) fun r hr => ?_
        cases r with
        | ok w n =>
          refine returns_ok ?_
          have : Val.deepL (es ++ [w]) ≤ N := deepL_le.mpr fun x hx => by
            simp only [List.mem_append, List.mem_singleton] at hx
            rcases hx with hx | rfl
            · exact deepL_le.mp hes x hx
            · exact hr
          simp only [DeepRes, Val.deep]; omega
        | err w e =>
          refine returns_ok ?_
          simp only [DeepRes, Val.deep, Val.deepL] at hr ⊢; omega
    | _ => exact returns_error
  | map i kc vc kd vd _ _ ihk ihv =>
    intro hwf b v hv
    obtain ⟨hkey, hkd, hvd, hkz, hvz, _, _, hkw, hvw⟩ := hwf
    unfold codecDecode
    cases v with
    | map isNil m =>
      simp only [Val.deep] at hv
      simp only
      split
      · exact returns_ok (by simpa only [DeepRes, Val.deep] using hv)
      · rcases decodeVarint b with ⟨l, n, _ | e⟩
        · simp only
          refine returns_lift fun rest _ => ?_
          refine returns_bind (struct_deep (N := N) (by
            intro f hf
            simp only [List.mem_cons, List.not_mem_nil, or_false] at hf
            rcases hf with rfl | rfl
            · exact ihk hkw
            · exact ihv hvw) rest (.struct [i.kzero, i.vzero]) (by
              simp only [hkz, hvz, Val.deep, Val.deepL, deep_zero]; omega)) fun r hr => ?_
          rcases r with ⟨v', m'⟩ | ⟨v', e⟩
          · cases v' with
            | struct vs =>
              match vs with
              | [] => exact returns_error
              | [_] => exact returns_error
              | [a, w] =>
                simp only
                cases a.toKey? with
                | none => exact returns_error
                | some key =>
                  refine returns_ok ?_
                  simp only [DeepRes, Val.deep, Val.deepL] at hr ⊢
                  exact deepM_assign m key w hv (by omega)
              | _ :: _ :: _ :: _ => exact returns_error
            | _ => exact returns_error
          · exact returns_ok (by simpa only [DeepRes, Val.deep] using hv)
        · exact returns_ok (by simpa only [DeepRes, Val.deep] using hv)
    | _ => exact returns_error

theorem zeros_deep {L : Layout} {env : Env} (hwf : WFEnv L env) (t : TypeId) : ((env t).zero).deep = 1 := by
  rw [hwf.zero]
  have : Val.deepL ((L t).map Shape.zero) ≤ 0 := deepL_le.mpr fun v hv => by
    simp only [List.mem_map] at hv
    obtain ⟨s, _, rfl⟩ := hv
    rw [deep_zero]; omega
  simp only [Val.deep]; omega

/-- With `d` levels of recursion nothing is nested deeper than `d + 1` that was not before. -/
theorem msg_deep {L : Layout} {env : Env} (hwf : WFEnv L env) : ∀ d N t b v, d ≤ N → v.deep ≤ 1 + N →
    Returns (decodeMsg env d t b v) (DeepRes (1 + N)) := by
  intro d
  induction d with
  | zero => exact fun _ _ _ _ _ _ => returns_error
  | succ d ih =>
    intro N t b v hd hv
    obtain ⟨M, rfl⟩ : ∃ M, N = 1 + M := ⟨N - 1, by omega⟩
    refine struct_deep (fun f hf => ?_) b v hv
    unfold dfields at hf
    simp only [List.mem_map] at hf
    obtain ⟨g, hg, rfl⟩ := hf
    exact codec_deep _ _ (fun t => by rw [zeros_deep hwf]; omega) (fun t b v => ih M t b v (by omega)) _ (hwf.codec t g hg)

theorem chain_nesting (n : Nat) : (chain n).nesting = n + 1 := by
  induction n with
  | zero => rfl
  | succ n ih => simp only [chain, Val.nesting, Val.nestingL, ih]; omega

end Pb
