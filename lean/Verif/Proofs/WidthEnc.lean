import Verif.Proofs.Width
import Verif.Proofs.Total
/-
Marshal with machine integers.
-/
namespace Pb
open Spec

variable {w : Nat}

theorem sumSizes_mem {α : Type} {g : α → Except Fault Nat} {xs : List α} : ∀ {n0 n : Nat}, sumSizes g n0 xs = .ok n →
    ∀ x ∈ xs, ∃ m, g x = .ok m ∧ m ≤ n := by
  induction xs with
  | nil => intro n0 n _ x hx; exact absurd hx List.not_mem_nil
  | cons y ys ih =>
    intro n0 n h x hx
    simp only [sumSizes, bind, Except.bind] at h
    split at h
    · cases h
    · rename_i s hs
      rcases List.mem_cons.mp hx with rfl | hx
      · exact ⟨s, hs, by have := sumSizes_ge h; omega⟩
      · exact ih h x hx

theorem appendAll_congr {α : Type} {e e' : Bytes → α → Except Fault Bytes} {xs : List α} (h : ∀ x ∈ xs, ∀ b, e b x = e' b x) :
    ∀ b, appendAll e b xs = appendAll e' b xs := by
  induction xs with
  | nil => intro b; rfl
  | cons x xs ih =>
    intro b
    simp only [appendAll, h x (List.mem_cons_self ..), bind, Except.bind]
    split
    · rfl
    · exact ih (fun y hy => h y (List.mem_cons_of_mem _ hy)) _

theorem sizeOfVarint_ten (v : U64) : sizeOfVarint v ≤ 10 := by
  have := bitsLen64_le64 v
  unfold sizeOfVarint
  omega

theorem sizeRequired_small {s : Scalar} (hs : s ≠ .string) {v : Val} {f : FTag} {k : Nat} (h : sizeRequired s v f = .ok k) :
    k ≤ f.tagsize + 10 := by
  have key : ∀ u : U64, sizeOfVarint u + f.tagsize ≤ f.tagsize + 10 := fun u => by have := sizeOfVarint_ten u; omega
  cases s with
  | string => exact absurd rfl hs
  | bool | float32 | float64 | fixed32 | fixed64 =>
    cases h; omega
  | int32 | uint32 | zigzag32 | int64 | uint64 | zigzag64 =>
    simp only [sizeRequired, bind, Except.bind, pure, Except.pure] at h
    split at h
    · cases h
    · cases h; exact key _

theorem sizeNormal_small {s : Scalar} (hs : s ≠ .string) {v : Val} {f : FTag} {k : Nat} (h : sizeNormal s v f = .ok k) :
    k ≤ f.tagsize + 10 := by
  have key : ∀ u : U64, sizeOfVarint u + f.tagsize ≤ f.tagsize + 10 := fun u => by have := sizeOfVarint_ten u; omega
  cases s with
  | string => exact absurd rfl hs
  | _ =>
    simp only [sizeNormal, bind, Except.bind, pure, Except.pure] at h
    split at h
    · cases h
    · split at h <;> cases h <;> first | exact key _ | omega

theorem fits_str {L : Layout} {vc : Codec} {x : Bytes} (hv : Fits L vc.shape (.str x)) : vc = .required .string ∨ vc = .normal .string := by
  cases vc with
  | required s | normal s => cases s <;> first | exact .inl rfl | exact .inr rfl | (exfalso; cases hv)
  | _ => exfalso; cases hv

theorem fits_bytes {L : Layout} {vc : Codec} {x : Option Bytes} (hv : Fits L vc.shape (.bytes x)) : vc = .bytes := by
  cases vc with
  | bytes => rfl
  | required s | normal s => exfalso; cases s <;> cases hv
  | _ => exfalso; cases hv

theorem sizeOfVarlen_zero : sizeOfVarlen 0 = 1 := rfl

theorem size_readStr {L : Layout} {sz : TypeId → Val → Except Fault Nat} {vc : Codec} {v : Val} {f : FTag} {m : Nat} {x : Bytes}
    (hv : Fits L vc.shape v) (ht : f.tagsize ≤ 10) (h2 : codecSize sz vc v f = .ok m) (h : readStr v = .ok x) :
    sizeOfVarlen x.length + f.tagsize ≤ m + 20 := by
  cases v with
  | str y =>
    cases h
    rcases fits_str hv with rfl | rfl
    · cases h2; omega
    · simp only [codecSize, sizeNormal, readStr, bind, Except.bind, pure, Except.pure] at h2
      by_cases hx : x = []
      · rw [hx, List.length_nil, sizeOfVarlen_zero]; omega
      · rw [if_pos hx] at h2; injection h2 with h2; omega
  | bytes y =>
    have := fits_bytes hv
    subst this
    cases y with
    | none => cases h; rw [List.length_nil, sizeOfVarlen_zero]; omega
    | some y =>
      cases h
      injection h2 with h2
      omega
  | _ => cases h

/-- The size of a value measured as a key is not much more than its size. -/
theorem key_measure {L : Layout} {sz : TypeId → Val → Except Fault Nat} {kc vc : Codec} (hk : kc.shape.isKey) {v : Val} {f : FTag} {k m : Nat}
    (hv : Fits L vc.shape v) (hf : f.OK) (h1 : codecSize sz kc v f = .ok k) (h2 : codecSize sz vc v f = .ok m) : k ≤ m + 20 := by
  have ht : f.tagsize ≤ 10 := by rw [hf]; exact sizeOfVarint_ten _
  cases kc with
  | required s =>
    by_cases hs : s = .string
    · subst hs
      simp only [codecSize, sizeRequired, bind, Except.bind, pure, Except.pure] at h1
      rcases hr : readStr v with e | x
      · rw [hr] at h1; cases h1
      · have := size_readStr hv ht h2 hr
        rw [hr] at h1
        injection h1 with h1
        omega
    · have := sizeRequired_small hs h1
      omega
  | normal s =>
    by_cases hs : s = .string
    · subst hs
      simp only [codecSize, sizeNormal, bind, Except.bind, pure, Except.pure] at h1
      rcases hr : readStr v with e | x
      · rw [hr] at h1; cases h1
      · have := size_readStr hv ht h2 hr
        rw [hr] at h1
        simp only at h1
        split at h1
        · injection h1 with h1; omega
        · injection h1 with h1; omega
    · have := sizeNormal_small hs h1
      omega
  | _ => exact absurd hk (by simp [Codec.shape, Shape.isKey])

theorem codecSizeI_error {kc : Codec} (hk : kc.shape.isKey) {sz : TypeId → Val → Except Fault Nat} {szI : TypeId → Val → Except Fault Int}
    {v : Val} {f : FTag} {e : Fault} (h : codecSize sz kc v f = .error e) : codecSizeI w szI kc v f = .error e := by
  cases kc with
  | required s | normal s =>
    simp only [codecSize] at h
    simp only [codecSizeI, h, bind, Except.bind]
  | _ => exact absurd hk (by simp [Codec.shape, Shape.isKey])

theorem codecEncodeI_eq {L : Layout} (hw : 5 ≤ w) {sz : TypeId → Val → Except Fault Nat} {szI : TypeId → Val → Except Fault Int}
    {rec recI : TypeId → Bytes → Val → Except Fault Bytes} (hsz : ∀ t v n, sz t v = .ok n → n < 2 ^ (w - 1) → szI t v = .ok n)
    (hrec : ∀ t v n, FitsMsg L t v → sz t v = .ok n → n + 20 < 2 ^ (w - 1) → ∀ b, recI t b v = rec t b v) :
    ∀ c : Codec, c.WF → c.TagsOK → ∀ v f n, Fits L c.shape v → codecSize sz c v f = .ok n → n + 20 < 2 ^ (w - 1) →
      ∀ b, codecEncodeI w szI recI c b v f = codecEncode sz rec c b v f := by
  intro c
  induction c with
  | normal s | required s | option s | bytes => intros; rfl
  | ptr z c ih =>
    intro hwf ht v f n hv h hn b
    cases v with
    | ptr v =>
      simp only [Codec.shape] at hv
      cases hv with
      | ptr _ _ hv => exact ih hwf.2 ht v f n hv h hn b
    | _ => rfl
  | msg t =>
    intro _ _ v f n hv h hn b
    cases v with
    | ptr v =>
      simp only [codecSize, bind, Except.bind, pure, Except.pure] at h
      rcases hr : sz t v with e | m
      · rw [hr] at h; cases h
      · rw [hr] at h; cases h
        simp only [codecEncodeI, codecEncode, hsz t v m hr (by omega), hr, bind, Except.bind, intToU64_nat]
        exact hrec t v m hv hr (by omega) _
    | _ => rfl
  | slice z c ih =>
    intro hwf ht v f n hv h hn b
    cases v with
    | slice isNil es sp =>
      simp only [Codec.shape] at hv
      cases hv with
      | slice _ _ _ _ _ hes _ =>
        refine appendAll_congr (fun e he b => ?_) b
        obtain ⟨m, hm, hle⟩ := sumSizes_mem (n0 := 0) h e he
        exact ih hwf.2 ht e f m (hes e he) hm (by omega) b
    | _ => rfl
  | map i kc vc kd vd ihk ihv _ _ =>
    intro hwf ht v f n hv h hn b
    cases v with
    | map isNil m =>
      obtain ⟨hkey, _, _, _, _, hkw, hvw, _, _⟩ := hwf
      obtain ⟨_, htv, htk, htv', _, _⟩ := ht
      simp only [Codec.shape] at hv
      cases hv with
      | map _ _ _ _ _ _ hks hvs =>
        simp only [codecEncodeI, codecEncode]
        have : ∀ e ∈ m, ∀ b : Bytes, (do
            let keySize ← codecSizeI w szI kc e.1.toVal i.key
            let valSize ← codecSizeI w szI kc e.2 i.val
            let b ← codecEncodeI w szI recI kc (appendVarint (b ++ appendVarint [] i.wiretag) (intToU64 (wrapInt w (keySize + valSize)))) e.1.toVal i.key
            codecEncodeI w szI recI vc b e.2 i.val) = (do
            let keySize ← codecSize sz kc e.1.toVal i.key
            let valSize ← codecSize sz kc e.2 i.val
            let b ← codecEncode sz rec kc (appendVarint (b ++ appendVarint [] i.wiretag) (BitVec.ofNat 64 (keySize + valSize))) e.1.toVal i.key
            codecEncode sz rec vc b e.2 i.val) := by
          intro e he b
          simp only [codecSize, bind, Except.bind, pure, Except.pure] at h
          split at h
          · cases h
          · rename_i n' hn'
            have hle : n' ≤ n := by split at h <;> cases h <;> omega
            obtain ⟨s, hs, hsle⟩ := sumSizes_mem (n0 := 0) hn' e he
            split at hs
            · cases hs
            · rename_i ks hks'
              split at hs
              · cases hs
              · rename_i vs hvs'
                cases hs
                simp only [codecSizeI_eq hw hsz _ _ _ _ hks' (by omega), hks', bind, Except.bind]
                rcases hkv : codecSize sz kc e.2 i.val with x | k
                · rw [codecSizeI_error hkey hkv]
                · have hm := key_measure hkey (hvs e he) htv hkv hvs'
                  rw [codecSizeI_eq hw hsz _ _ _ _ hkv (by omega)]
                  simp only
                  rw [show ((ks : Int) + (k : Int)) = ((ks + k : Nat) : Int) by omega, wrapInt_small hw (by omega), intToU64_nat,
                    ihk hkw htk _ _ _ (hks e he) hks' (by omega)]
                  split
                  · rfl
                  · exact ihv hvw htv' _ _ _ (hvs e he) hvs' (by omega) _
        rw [appendAll_congr this b]
    | _ => rfl

theorem encodeMsgI_eq {L : Layout} {env : Env} (hwf : WFEnv L env) (ht : TagsOK env) (hw : 5 ≤ w) : ∀ d t v n, FitsMsg L t v →
    sizeMsg env d t v = .ok n → n + 20 < 2 ^ (w - 1) → ∀ b, encodeMsgI w env d t b v = encodeMsg env d t b v := by
  intro d
  induction d with
  | zero => intros; rfl
  | succ d ih =>
    intro t v n hv h hn b
    refine appendAll_congr (fun f hf b => ?_) b
    obtain ⟨m, hm, hle⟩ := sumSizes_mem (n0 := 0) h f hf
    obtain ⟨vs, rfl, hfl⟩ := fitsMsg_iff.mp hv
    obtain ⟨x, hsl, hget, hfit⟩ := slotOf_fits hfl (hwf.slot t f hf)
    simp only [hsl, bind, Except.bind] at hm ⊢
    exact codecEncodeI_eq hw (sizeMsgI_eq hw env d) ih f.codec (hwf.codec t f hf) (ht t f hf).2 x f.tag m hfit hm (by omega) b

end Pb
