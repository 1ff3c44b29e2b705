import Verif.Proofs.Cache
/-
Type analysis with caches keeps the invariant of the shared state.
-/
namespace Pb.Cache
open Spec

/-! ### measures -/

/-- The largest rank of a struct type in a type. -/
def typeRank (rank : TypeId → Nat) : GoType → Nat
  | .named t => rank t + 1
  | .ptr T => typeRank rank T
  | .slice T => typeRank rank T
  | .map K V => max (typeRank rank K) (typeRank rank V)
  | _ => 0

/-- The size of a type. -/
def typeSize : GoType → Nat
  | .ptr T => typeSize T + 1
  | .slice T => typeSize T + 1
  | .map K V => typeSize K + typeSize V + 3
  | _ => 1

/-- Measure of a type. -/
def meas (rank : TypeId → Nat) (T : GoType) : Nat × Nat := (typeRank rank T, typeSize T)

/-- Measure of a struct type made by `reflect.StructOf`. -/
def measD (rank : TypeId → Nat) : StructDecl → Nat × Nat
  | [] => (0, 1)
  | f :: fs =>
    match f.ty with
    | .ty T => (max (typeRank rank T) (measD rank fs).1, typeSize T + (measD rank fs).2)
    | .opt _ => measD rank fs

/-- Measure of a struct type. -/
def measK (rank : TypeId → Nat) : InfoKey → Nat × Nat
  | .named t => (rank t + 1, 0)
  | .anon d => measD rank d

/-- Lexicographic order. -/
def Lt (a b : Nat × Nat) : Prop := a.1 < b.1 ∨ a.1 = b.1 ∧ a.2 < b.2

/-- The next measure. -/
def nxt (a : Nat × Nat) : Nat × Nat := (a.1, a.2 + 1)

theorem Lt.trans {a b c : Nat × Nat} (h : Lt a b) (h' : Lt b c) : Lt a c := by unfold Lt at *; omega
theorem lt_nxt (a : Nat × Nat) : Lt a (nxt a) := by unfold Lt nxt; omega
theorem Lt.nxt_le {a b c : Nat × Nat} (h : Lt a b) (h' : Lt c (nxt a)) : Lt c b := by unfold Lt nxt at *; simp only at h'; omega

theorem typeRank_le {rank : TypeId → Nat} {n : Nat} : ∀ {T : GoType}, (∀ u, Mentions T u → rank u < n) → typeRank rank T ≤ n := by
  intro T
  induction T with
  | named t => intro h; exact h t (.named t)
  | ptr T ih => intro h; exact ih fun u hu => h u (.ptr _ _ hu)
  | slice T ih => intro h; exact ih fun u hu => h u (.slice _ _ hu)
  | map K V ih1 ih2 =>
    intro h
    have h1 := ih1 fun u hu => h u (.key _ _ _ hu)
    have h2 := ih2 fun u hu => h u (.val _ _ _ hu)
    simp only [typeRank]; omega
  | _ => intro _; exact Nat.zero_le _

theorem measD_field {rank : TypeId → Nat} : ∀ {d : StructDecl} {f : FieldDecl} {T : GoType}, f ∈ d → f.ty = .ty T →
    typeRank rank T ≤ (measD rank d).1 ∧ typeSize T < (measD rank d).2 := by
  intro d
  induction d with
  | nil => intro f T h; cases h
  | cons g d ih =>
    intro f T hf hT
    have hpos : 0 < (measD rank d).2 := by
      clear ih hf
      induction d with
      | nil => exact Nat.one_pos
      | cons g d ih =>
        simp only [measD]
        split
        · simp only; omega
        · exact ih
    rcases List.mem_cons.mp hf with rfl | hf
    · simp only [measD, hT]; omega
    · have := ih hf hT
      simp only [measD]
      split
      · simp only; omega
      · exact this

/-- The type of a field is smaller than the struct type. -/
theorem field_lt {D : Decls} {rank : TypeId → Nat} (hA : Acyclic D rank) {k : InfoKey} {f : FieldDecl} {T : GoType} {text : Text}
    (hf : f ∈ k.decl D) (he : f.exported = true) (ht : f.tag = some text) (hT : f.ty = .ty T) : Lt (meas rank T) (measK rank k) := by
  cases k with
  | named t =>
    have := typeRank_le (rank := rank) (n := rank t) (T := T) fun u hu => hA t f hf he (by rw [ht]; simp) T u hT hu
    left
    simp only [meas, measK]; omega
  | anon d =>
    have := measD_field (rank := rank) (d := d) hf hT
    unfold Lt
    simp only [meas, measK]; omega

theorem entry_lt (rank : TypeId → Nat) (K V : GoType) (a b : U64) : Lt (measK rank (.anon (entryDecl K V a b))) (meas rank (.map K V)) := by
  unfold Lt
  simp only [measK, measD, entryDecl, meas, typeRank, typeSize]; omega

/-! ### what one analysis knows -/

variable {D : Decls} {must : Prop} {r : TypeId} {rank : TypeId → Nat}

/-- The maps of an analysis hold what they should. -/
structure WOK (D : Decls) (r : TypeId) (s : State) (G : Ghost) (w : Walk) : Prop where
  codecs : ∀ T p, w.codecs T = some p → s.has p ∧ Keeps D r T (lab G p)
  infos : ∀ k i, w.infos k = some i → s.keyIs i k

/-- Below the measure `m` everything kept is filled in. -/
def Ready (must : Prop) (rank : TypeId → Nat) (m : Nat × Nat) (s : State) (w : Walk) : Prop :=
  must → (∀ T p, w.codecs T = some p → Lt (meas rank T) m → s.filled p) ∧ (∀ k i, w.infos k = some i → Lt (measK rank k) m → s.closed i)

/-- What was added is filled in. -/
def Added (must : Prop) (s : State) (w w' : Walk) : Prop :=
  must → (∀ T p, w'.codecs T = some p → w.codecs T = some p ∨ s.filled p) ∧ (∀ k i, w'.infos k = some i → w.infos k = some i ∨ s.closed i)

theorem WOK.mono {s s' : State} {G G' : Ghost} {w : Walk} (h : WOK D r s G w) (hle : Le s G s' G') : WOK D r s' G' w where
  codecs T p hp := ⟨hle.has (h.codecs T p hp).1, by rw [hle.lab (h.codecs T p hp).1]; exact (h.codecs T p hp).2⟩
  infos k i hi := hle.key _ _ (h.infos k i hi)

theorem Ready.mono {s s' : State} {G G' : Ghost} {w : Walk} {m : Nat × Nat} (h : Ready must rank m s w) (hle : Le s G s' G') :
    Ready must rank m s' w := fun hm =>
  ⟨fun T p hp hl => hle.filled _ ((h hm).1 T p hp hl), fun k i hi hl => hle.closed _ ((h hm).2 k i hi hl)⟩

theorem Ready.less {s : State} {w : Walk} {m m' : Nat × Nat} (h : Ready must rank m s w) (hl : ∀ a, Lt a m' → Lt a m) :
    Ready must rank m' s w := fun hm =>
  ⟨fun T p hp h' => (h hm).1 T p hp (hl _ h'), fun k i hi h' => (h hm).2 k i hi (hl _ h')⟩

theorem Ready.added {s : State} {w w' : Walk} {m : Nat × Nat} (h : Ready must rank m s w) (ha : Added must s w w') :
    Ready must rank m s w' := fun hm =>
  ⟨fun T p hp hl => ((ha hm).1 T p hp).elim (fun h' => (h hm).1 T p h' hl) id,
   fun k i hi hl => ((ha hm).2 k i hi).elim (fun h' => (h hm).2 k i h' hl) id⟩

theorem Added.refl (s : State) (w : Walk) : Added must s w w := fun _ => ⟨fun _ _ h => .inl h, fun _ _ h => .inl h⟩

theorem Added.mono {s s' : State} {G G' : Ghost} {w w' : Walk} (h : Added must s w w') (hle : Le s G s' G') : Added must s' w w' :=
  fun hm => ⟨fun T p hp => ((h hm).1 T p hp).imp id (hle.filled _), fun k i hi => ((h hm).2 k i hi).imp id (hle.closed _)⟩

theorem Added.trans {s : State} {w w' w'' : Walk} (h : Added must s w w') (h' : Added must s w' w'') : Added must s w w'' :=
  fun hm => ⟨fun T p hp => ((h' hm).1 T p hp).elim ((h hm).1 T p) .inr, fun k i hi => ((h' hm).2 k i hi).elim ((h hm).2 k i) .inr⟩

/-- After a codec was kept and filled in. -/
theorem Added.setCodec {s : State} {w w' : Walk} {T : GoType} {p : CPtr} (h : Added must s (w.setCodec T p) w') (hp : s.filled p) :
    Added must s w w' := fun hm =>
  ⟨fun T' p' hp' => ((h hm).1 T' p' hp').elim
    (fun h1 => (upd_some h1).elim .inl fun ⟨_, h2⟩ => .inr (h2 ▸ hp)) .inr, (h hm).2⟩

theorem WOK.setCodec {s : State} {G : Ghost} {w : Walk} {T : GoType} {p : CPtr} (h : WOK D r s G w) (hp : s.has p)
    (hk : Keeps D r T (lab G p)) : WOK D r s G (w.setCodec T p) where
  codecs T' p' hp' := by
    rcases upd_some hp' with h1 | ⟨rfl, rfl⟩
    · exact h.codecs T' p' h1
    · exact ⟨hp, hk⟩
  infos := h.infos

theorem Ready.setCodec {s : State} {w : Walk} {m : Nat × Nat} {T : GoType} {p : CPtr} (h : Ready must rank m s w)
    (hm : ¬ Lt (meas rank T) m) : Ready must rank m s (w.setCodec T p) := fun hmust =>
  ⟨fun T' p' hp' hl => by
    rcases upd_some hp' with h1 | ⟨rfl, rfl⟩
    · exact (h hmust).1 T' p' h1 hl
    · exact absurd hl hm, (h hmust).2⟩

/-- What analysis of a type returns: a codec that is meant to be `E`. -/
def CPost (D : Decls) (must : Prop) (r : TypeId) (w : Walk) (P : Pend) (E : Except Fault Codec) :
    State → Ghost → Pend → CPtr × Walk → Prop := fun s G P' a =>
  P' = P ∧ WOK D r s G a.2 ∧ Added must s w a.2 ∧ s.has a.1 ∧ (must → s.filled a.1) ∧ E = .ok (lab G a.1)

/-- What analysis of a struct type returns. -/
def IPost (D : Decls) (must : Prop) (r : TypeId) (w : Walk) (P : Pend) (k : InfoKey) : State → Ghost → Pend → Nat × Walk → Prop :=
  fun s G P' a => P' = P ∧ WOK D r s G a.2 ∧ Added must s w a.2 ∧ s.keyIs a.1 k ∧ (must ∨ w.infos k = none → s.closed a.1)

/-- `rec` analyses struct types. -/
def RecOK (D : Decls) (must : Prop) (r : TypeId) (rank : TypeId → Nat) (rec : InfoKey → WProg Nat) : Prop :=
  ∀ k w P s G, Within D r k → WOK D r s G w → Ready must rank (nxt (measK rank k)) s w →
    Safe D must (IPost D must r w P k) (rec k w) P s G

/-! ### codecs for types -/

theorem structCodecP_safe (hC : Consistent D r) {rec : InfoKey → WProg Nat} (hrec : RecOK D must r rank rec) {conf : Conf} {t : TypeId}
    {w : Walk} {P : Pend} {s : State} {G : Ghost} (hu : Uses D r conf (.ptr (.named t))) (hw : WOK D r s G w)
    (hr : Ready must rank (nxt (meas rank (.ptr (.named t)))) s w) :
    Safe D must (CPost D must r w P (.ok (.msg t))) (structCodecP rec t w) P s G := by
  unfold structCodecP
  refine safe_read (o := .codecLoad t) (fun _ => rfl) fun s₁ G₁ hle₁ hI₁ => ?_
  simp only [exec]
  replace hw := hw.mono hle₁
  replace hr := hr.mono hle₁
  clear hle₁
  cases hl : s₁.codecCache t with
  | some c =>
    obtain ⟨h1, h2⟩ := hI₁.codecCache _ _ hl
    exact ⟨rfl, hw, Added.refl _ _, has_of_filled h1, fun _ => h1, by rw [h2]⟩
  | none =>
    show Safe D must _ (match w.codecs (.ptr (.named t)) with
      | some c => _
      | none => _) P s₁ G₁
    cases hwc : w.codecs (.ptr (.named t)) with
    | some c =>
      obtain ⟨h1, h2⟩ := hw.codecs _ _ hwc
      refine ⟨rfl, hw, Added.refl _ _, h1, fun hm => (hr hm).1 _ _ hwc (lt_nxt _), ?_⟩
      have := hC.asked _ _ _ hu h2
      exact this
    | none =>
      refine safe_newCodec (.msg t) fun c s₂ G₂ hle₂ hc hlab => ?_
      have hw₁ : WOK D r s₂ G₂ (w.setCodec (.ptr (.named t)) (.heap c)) := (hw.mono hle₂).setCodec hc (by rw [hlab]; exact .msg t)
      have hr₁ : Ready must rank (nxt (measK rank (.named t))) s₂ (w.setCodec (.ptr (.named t)) (.heap c)) := by
        refine ((hr.mono hle₂).less fun a ha => ?_).setCodec ?_
        · unfold Lt nxt at *; simp only [meas, measK, typeRank, typeSize] at *; omega
        · unfold Lt nxt; simp only [meas, measK, typeRank, typeSize]; omega
      refine (hrec (.named t) _ (c :: P.1, P.2) s₂ G₂ (.msg conf t hu) hw₁ hr₁).bind ?_
      rintro ⟨i, w'⟩ s₃ G₃ P₃ hle₃ ⟨rfl, hw₃, ha₃, hk₃, hcl₃⟩
      refine safe_setCodec (P := P) (hle₃.has hc) (by rw [hle₃.lab hc, hlab]; exact ⟨rfl, hk₃, fun m => hcl₃ (.inl m)⟩) fun s₄ G₄ hle₄ hf₄ => ?_
      refine safe_codecLoadOrStore hf₄ (((hle₃.trans hle₄).lab hc).trans hlab) fun p s₅ G₅ hle₅ hf₅ hl₅ => ?_
      have hle := hle₄.trans hle₅
      exact ⟨rfl, hw₃.mono hle, (ha₃.mono hle).setCodec (hle₅.filled _ hf₄), has_of_filled hf₅, fun _ => hf₅, by rw [hl₅]⟩

theorem wCodecP_hit {rec : InfoKey → WProg Nat} {conf : Conf} {T : GoType} {w : Walk} {c : CPtr} (h : w.codecs T = some c) :
    wCodecP rec conf T w = .ret (c, w) := by
  cases T <;> (unfold wCodecP; simp only [h]; rfl)

theorem wCodecP_msg {rec : InfoKey → WProg Nat} {conf : Conf} {t : TypeId} {w : Walk} (h : w.codecs (.ptr (.named t)) = none) :
    wCodecP rec conf (.ptr (.named t)) w = structCodecP rec t w := by
  unfold wCodecP; simp only [h]

theorem wCodecP_ptr {rec : InfoKey → WProg Nat} {conf : Conf} {T : GoType} {w : Walk} (hn : ∀ t, T ≠ .named t) (h : w.codecs (.ptr T) = none) :
    wCodecP rec conf (.ptr T) w = .op .newCodec fun p =>
      (wCodecP rec conf T (w.setCodec (.ptr T) (.heap p))).bind fun a =>
        .op (.setCodec p (.ptr (zeroOf T) a.1)) fun _ => .ret (.heap p, a.2) := by
  cases T with
  | named t => exact absurd rfl (hn t)
  | _ => conv => lhs; unfold wCodecP
         simp only [h]; rfl

theorem wCodecP_other {rec : InfoKey → WProg Nat} {conf : Conf} {T : GoType} {w : Walk} (hn : ∀ t, T ≠ .ptr t) (h : w.codecs T = none) :
    (∃ c, wCodec conf T = .ok c ∧ wCodecP rec conf T w = .ret (globOf c, w) ∧ ∀ G, lab G (globOf c) = c) ∨
    (∃ e, wCodec conf T = .error e) ∧ wCodecP rec conf T w = .panic := by
  obtain ⟨z, q⟩ := conf
  cases T with
  | ptr T => exact absurd rfl (hn T)
  | slice T =>
    by_cases hu : T = .uint8
    · subst hu
      left
      refine ⟨.bytes, rfl, ?_, fun _ => rfl⟩
      unfold wCodecP; simp only [h]; rfl
    · right
      refine ⟨⟨_, wCodec_slice _ _ hu⟩, ?_⟩
      unfold wCodecP; simp only [h, if_neg hu]
  | uint8 | other | named _ | map _ _ => right; exact ⟨⟨.panic, rfl⟩, by unfold wCodecP; simp only [h]; rfl⟩
  | _ =>
    left
    cases q <;> cases z <;> exact ⟨_, rfl, by unfold wCodecP; simp only [h]; rfl, fun _ => rfl⟩

/-- `*`-types within a type. -/
inductive Under : GoType → GoType → Prop
  | refl (T) : Under T T
  | ptr (T U) : Under U T → Under U (.ptr T)

theorem under_size {U T : GoType} (h : Under U T) : typeSize U ≤ typeSize T := by
  induction h with
  | refl => exact Nat.le_refl _
  | ptr T U _ ih => simp only [typeSize]; omega

/-- If analysis without caches panics and nothing was kept, so does analysis with caches. -/
theorem wCodecP_doomed {rec : InfoKey → WProg Nat} {conf : Conf} : ∀ {T : GoType} {e : Fault} {w : Walk} {P : Pend} {s : State} {G : Ghost},
    wCodec conf T = .error e → (∀ U, Under U T → w.codecs U = none) →
    Safe D must (fun _ _ _ _ => False) (wCodecP rec conf T w) P s G := by
  intro T
  induction T with
  | ptr T ih =>
    intro e w P s G he hw
    by_cases hn : ∃ t, T = .named t
    · obtain ⟨t, rfl⟩ := hn; cases he
    · have hn' : ∀ t, T ≠ .named t := fun t ht => hn ⟨t, ht⟩
      rw [wCodecP_ptr hn' (hw _ (.refl _))]
      refine safe_newCodec .bytes fun p s₂ G₂ _ _ _ => ?_
      rw [wCodec_ptr _ _ hn'] at he
      have he' : wCodec conf T = .error e := by
        generalize wCodec conf T = q at he
        rcases q with e' | c
        · cases he; rfl
        · cases he
      refine (ih he' fun U hU => ?_).bind fun _ _ _ _ _ h => h.elim
      have : U ≠ .ptr T := by
        rintro rfl
        have := under_size hU
        simp only [typeSize] at this; omega
      simp only [Walk.setCodec, upd, if_neg this]
      exact hw U (.ptr _ _ hU)
  | _ =>
    intro e w P s G he hw
    rcases wCodecP_other (rec := rec) (conf := conf) (by intro t h; cases h) (hw _ (.refl _)) with ⟨c, h, _⟩ | ⟨_, h⟩
    · rw [h] at he; cases he
    · rw [h]; trivial

theorem uses_under {conf : Conf} : ∀ {T U : GoType}, Under U T → Uses D r conf T → (∀ t, U ≠ .named t) → Uses D r conf U := by
  intro T U h
  induction h with
  | refl => intro h _; exact h
  | ptr T U hU ih =>
    intro h hn
    refine ih (.ptr _ _ h ?_) hn
    rintro t rfl
    cases hU
    exact hn t rfl

theorem keeps_not_named {t : TypeId} {c : Codec} (h : Keeps D r (.named t) c) : False := by
  generalize hT : GoType.named t = T at h
  cases h with
  | slice k f conf T E c _ _ hc => cases hc <;> cases hT
  | _ => cases hT

/-- A type that analysis panics on without caches is not found in them. -/
theorem doomed_miss (hC : Consistent D r) {conf : Conf} {T : GoType} {e : Fault} {w : Walk} {s : State} {G : Ghost}
    (hw : WOK D r s G w) (hu : Uses D r conf T) (he : wCodec conf T = .error e) : ∀ U, Under U T → w.codecs U = none := by
  have herr : ∀ {T U : GoType}, Under U T → ∀ e, wCodec conf T = .error e → ∃ e, wCodec conf U = .error e := by
    intro T U h
    induction h with
    | refl => exact fun e he => ⟨e, he⟩
    | ptr T U _ ih =>
      intro e he
      by_cases hn : ∃ t, T = .named t
      · obtain ⟨t, rfl⟩ := hn; cases he
      · rw [wCodec_ptr _ _ (fun t ht => hn ⟨t, ht⟩)] at he
        generalize hq : wCodec conf T = q at he
        rcases q with e' | c
        · exact ih e' hq
        · cases he
  intro U hU
  cases hk : w.codecs U with
  | none => rfl
  | some p =>
    exfalso
    obtain ⟨_, hk'⟩ := hw.codecs _ _ hk
    obtain ⟨e', he'⟩ := herr hU e he
    have := hC.asked _ _ _ (uses_under hU hu (by rintro t rfl; exact keeps_not_named hk')) hk'
    rw [he'] at this
    cases this

theorem wCodecP_safe (hC : Consistent D r) {rec : InfoKey → WProg Nat} (hrec : RecOK D must r rank rec) {conf : Conf} :
    ∀ {T : GoType} {w : Walk} {P : Pend} {s : State} {G : Ghost}, Uses D r conf T → WOK D r s G w →
      Ready must rank (nxt (meas rank T)) s w → Safe D must (CPost D must r w P (wCodec conf T)) (wCodecP rec conf T w) P s G := by
  intro T
  induction T with
  | ptr T ih =>
    intro w P s G hu hw hr
    cases hk : w.codecs (.ptr T) with
    | some p =>
      rw [wCodecP_hit hk]
      obtain ⟨h1, h2⟩ := hw.codecs _ _ hk
      exact ⟨rfl, hw, Added.refl _ _, h1, fun hm => (hr hm).1 _ _ hk (lt_nxt _), hC.asked _ _ _ hu h2⟩
    | none =>
      by_cases hn : ∃ t, T = .named t
      · obtain ⟨t, rfl⟩ := hn
        rw [wCodecP_msg hk]
        exact structCodecP_safe hC hrec hu hw hr
      · have hn' : ∀ t, T ≠ .named t := fun t ht => hn ⟨t, ht⟩
        cases hc : wCodec conf (.ptr T) with
        | error e =>
          exact (wCodecP_doomed hc (doomed_miss hC hw hu hc)).imp fun _ _ _ _ _ h => h.elim
        | ok c =>
          rw [wCodecP_ptr hn' hk]
          refine safe_newCodec c fun p s₂ G₂ hle₂ hp hlab => ?_
          have hw₁ : WOK D r s₂ G₂ (w.setCodec (.ptr T) (.heap p)) := (hw.mono hle₂).setCodec hp (by rw [hlab]; exact .ptr conf T c hu hn' hc)
          have hr₁ : Ready must rank (nxt (meas rank T)) s₂ (w.setCodec (.ptr T) (.heap p)) := by
            refine ((hr.mono hle₂).less fun a ha => ?_).setCodec ?_
            · unfold Lt nxt at *; simp only [meas, typeRank, typeSize] at *; omega
            · unfold Lt nxt; simp only [meas, typeRank, typeSize]; omega
          refine (ih (P := (p :: P.1, P.2)) (.ptr _ _ hu hn') hw₁ hr₁).bind ?_
          rintro ⟨q, w'⟩ s₃ G₃ P₃ hle₃ ⟨rfl, hw₃, ha₃, hh₃, hf₃, hl₃⟩
          have hc' : c = .ptr (zeroOf T) (lab G₃ q) := by
            rw [wCodec_ptr _ _ hn', hl₃] at hc
            cases hc; rfl
          refine safe_setCodec (P := P) (hle₃.has hp) ?_ fun s₄ G₄ hle₄ hf₄ => ?_
          · rw [hle₃.lab hp, hlab]; exact ⟨hc', hh₃, hf₃⟩
          · exact ⟨rfl, hw₃.mono hle₄, (ha₃.mono hle₄).setCodec hf₄, has_of_filled hf₄, fun _ => hf₄, by
              rw [(hle₃.trans hle₄).lab hp, hlab]⟩
  | _ =>
    intro w P s G hu hw hr
    cases hk : w.codecs _ with
    | some p =>
      rw [wCodecP_hit hk]
      obtain ⟨h1, h2⟩ := hw.codecs _ _ hk
      exact ⟨rfl, hw, Added.refl _ _, h1, fun hm => (hr hm).1 _ _ hk (lt_nxt _), hC.asked _ _ _ hu h2⟩
    | none =>
      rcases wCodecP_other (rec := rec) (conf := conf) (by intro t h; cases h) hk with ⟨c, h1, h2, h3⟩ | ⟨_, h⟩
      · rw [h1, h2]
        refine ⟨rfl, hw, Added.refl _ _, ?_, fun _ => ?_, by rw [h3]⟩
        · cases c <;> trivial
        · cases c <;> trivial
      · rw [h]; trivial

/-! ### codecs for fields -/

theorem sliceCodecP_safe (hC : Consistent D r) {k : InfoKey} {f : FieldDecl} {conf : Conf} {T E : GoType} {c : CPtr}
    {w : Walk} {P : Pend} {s : State} {G : Ghost} (hk : Within D r k) (hf : f ∈ k.decl D) (hc : Collects f conf T E)
    (he : wCodec conf E = .ok (lab G c)) (hh : s.has c) (hfc : must → s.filled c) (hw : WOK D r s G w)
    (hr : Ready must rank (nxt (meas rank T)) s w) :
    Safe D must (CPost D must r w P (.ok (.slice (zeroOf E) (lab G c)))) (sliceCodecP T (zeroOf E) c w) P s G := by
  unfold sliceCodecP
  refine safe_read (o := .sliceLoad c) (fun _ => rfl) fun s₁ G₁ hle₁ hI₁ => ?_
  simp only [exec]
  replace hw := hw.mono hle₁
  replace hr := hr.mono hle₁
  rw [← hle₁.lab hh] at he ⊢
  replace hh := hle₁.has hh
  replace hfc := fun m => hle₁.filled _ (hfc m)
  clear hle₁
  have hz := wCodec_zero _ _ _ he
  cases hl : s₁.sliceMap c with
  | some p =>
    obtain ⟨_, h1, h2⟩ := hI₁.sliceMap _ _ hl
    exact ⟨rfl, hw, Added.refl _ _, has_of_filled h1, fun _ => h1, by rw [h2, hz]⟩
  | none =>
    show Safe D must _ (match w.codecs T with
      | some c => _
      | none => _) P s₁ G₁
    cases hwc : w.codecs T with
    | some p =>
      obtain ⟨h1, h2⟩ := hw.codecs _ _ hwc
      refine ⟨rfl, hw, Added.refl _ _, h1, fun hm => (hr hm).1 _ _ hwc (lt_nxt _), ?_⟩
      rw [hC.collected _ _ _ _ _ _ _ hk hf hc he h2]
    | none =>
      refine safe_newCodec (.slice (zeroOf E) (lab G₁ c)) fun p s₂ G₂ hle₂ hp hlab => ?_
      have hw₁ : WOK D r s₂ G₂ (w.setCodec T (.heap p)) := (hw.mono hle₂).setCodec hp (by
        rw [hlab]; exact .slice k f conf T E _ hk hf hc he)
      refine safe_setCodec (P := P) hp ?_ fun s₃ G₃ hle₃ hf₃ => ?_
      · rw [hlab]; exact ⟨by rw [hle₂.lab hh], hle₂.has hh, fun m => hle₂.filled _ (hfc m)⟩
      · have hle := hle₂.trans hle₃
        refine safe_sliceLoadOrStore (hle.has hh) hf₃ ?_ fun q s₄ G₄ hle₄ hf₄ hl₄ => ?_
        · rw [hle₃.lab hp, hlab, hle.lab hh, hz]
        · exact ⟨rfl, hw₁.mono (hle₃.trans hle₄), (Added.refl _ _).setCodec (hle₄.filled _ hf₃), has_of_filled hf₄, fun _ => hf₄, by
            rw [hl₄, (hle.trans hle₄).lab hh, hz]⟩

/-- What the walker does with a field that is not a map. -/
def tyCodecP' (rec : InfoKey → WProg Nat) (t : StructTag) (ty : GoType) : WProg CPtr := fun w =>
  match fixedCodec t.wireType (.ty ty) with
  | some c => .ret (globOf c, w)
  | none =>
    match baseTypeOf ty with
    | .slice _ =>
      match ty with
      | .slice .uint8 => .ret (.glob .bytes, w)
      | .slice elem =>
        (wCodecP rec { zigzag := t.zigzag, required := true } elem w).bind fun a => sliceCodecP ty (zeroOf elem) a.1 a.2
      | .ptr elem =>
        (wCodecP rec { zigzag := t.zigzag, required := true } elem w).bind fun a => sliceCodecP ty (zeroOf elem) a.1 a.2
      | _ => .panic
    | .map _ _ => .panic
    | _ => wCodecP rec { zigzag := t.zigzag, required := false } ty w

theorem tyCodecP_eq (rec : InfoKey → WProg Nat) (t : StructTag) (kt vt : Text) (ty : GoType) (h : ∀ k v, ty ≠ .map k v) :
    tyCodecP rec t kt vt ty = tyCodecP' rec t ty := by
  cases ty with
  | map k v => exact absurd rfl (h k v)
  | slice T => cases T <;> rfl
  | _ => rfl

theorem fixedCodec_glob {e : Nat} {T : FieldType} {c : Codec} (h : fixedCodec e T = some c) (G : Ghost) : lab G (globOf c) = c := by
  unfold fixedCodec at h
  repeat' split at h
  all_goals first | (cases h; rfl) | cases h

theorem optionCodec_glob {z : Bool} {b : OptBase} {c : Codec} (h : optionCodec z b = some c) (G : Ghost) : lab G (globOf c) = c := by
  cases b <;> cases h <;> rfl

theorem globOf_has (c : Codec) (s : State) : s.has (globOf c) := by cases c <;> trivial
theorem globOf_filled (c : Codec) (s : State) : s.filled (globOf c) := by cases c <;> trivial

theorem base_ptr_of_slice {T B : GoType} (h : baseTypeOf T = .slice B) : T = .slice B ∨ ∃ E, T = .ptr E ∧ baseTypeOf E = .slice B := by
  cases T with
  | ptr E => exact .inr ⟨E, rfl, h⟩
  | slice E => exact .inl h
  | _ => cases h

/-- The type of a field is below the measure of the struct. -/
def Low (must : Prop) (rank : TypeId → Nat) (k : InfoKey) (T : GoType) : Prop := must → Lt (meas rank T) (measK rank k)

theorem Ready.field {s : State} {w : Walk} {k : InfoKey} {T U : GoType} (h : Ready must rank (measK rank k) s w) (hl : Low must rank k T)
    (hu : ∀ a, Lt a (nxt (meas rank U)) → Lt a (nxt (meas rank T))) : Ready must rank (nxt (meas rank U)) s w := fun hm =>
  ⟨fun T' p hp h' => (h hm).1 T' p hp ((hl hm).nxt_le (hu _ h')), fun k i hi h' => (h hm).2 k i hi ((hl hm).nxt_le (hu _ h'))⟩

theorem tyCodecP_safe (hC : Consistent D r) {rec : InfoKey → WProg Nat} (hrec : RecOK D must r rank rec) {k : InfoKey} {f : FieldDecl}
    {text : Text} {T : GoType} {w : Walk} {P : Pend} {s : State} {G : Ghost} (hk : Within D r k) (hf : f ∈ k.decl D)
    (he : f.exported = true) (ht : f.tag = some text) (hT : f.ty = .ty T) (hlow : Low must rank k T) (hw : WOK D r s G w)
    (hr : Ready must rank (measK rank k) s w) :
    Safe D must (CPost D must r w P (tyCodec (parseStructTag text).1 f.keyTag f.valTag T))
      (tyCodecP rec (parseStructTag text).1 f.keyTag f.valTag T w) P s G := by
  by_cases hm : ∃ K V, T = .map K V
  · obtain ⟨K, V, rfl⟩ := hm
    have hlk : ∀ a, Lt a (nxt (meas rank K)) → Lt a (nxt (meas rank (.map K V))) := by
      intro a ha; unfold Lt nxt at *; simp only [meas, typeRank, typeSize] at *; omega
    have hlv : ∀ a, Lt a (nxt (meas rank V)) → Lt a (nxt (meas rank (.map K V))) := by
      intro a ha; unfold Lt nxt at *; simp only [meas, typeRank, typeSize] at *; omega
    refine (wCodecP_safe hC hrec (P := P) (.field k f _ K hk hf (.key text K V he ht hT)) hw (hr.field hlow hlk)).bind ?_
    rintro ⟨kc, w₁⟩ s₁ G₁ P₁ hle₁ ⟨rfl, hw₁, ha₁, hh₁, hf₁, hl₁⟩
    have hr₁ := (hr.mono hle₁).added ha₁
    refine (wCodecP_safe hC hrec (P := P₁) (.field k f _ V hk hf (.val text K V he ht hT)) hw₁ (hr₁.field hlow hlv)).bind ?_
    rintro ⟨vc, w₂⟩ s₂ G₂ P₂ hle₂ ⟨rfl, hw₂, ha₂, hh₂, hf₂, hl₂⟩
    have hr₂ := (hr₁.mono hle₂).added ha₂
    replace hl₁ : wCodec { zigzag := (parseStructTag f.keyTag).1.zigzag, required := true } K = .ok (lab G₂ kc) := by
      rw [hle₂.lab hh₁]; exact hl₁
    replace hh₁ := hle₂.has hh₁
    replace hf₁ := fun m => hle₂.filled _ (hf₁ m)
    replace ha₁ := (ha₁.mono hle₂).trans ha₂
    clear hle₁ hle₂ ha₂ hr₁ hw₁ hw hr
    dsimp only at hl₁ hl₂ hh₁ hh₂ hf₁ hf₂ ha₁ hw₂ hr₂ ⊢
    -- without caches, the entry struct is analysed like this
    obtain ⟨c, hc, fk, fv, hwalk, hcm⟩ : ∃ c, tyCodec (parseStructTag text).1 f.keyTag f.valTag (.map K V) = .ok c ∧ ∃ fk fv,
        walkFields 0 (entryDecl K V (parseStructTag f.keyTag).1.wiretag (parseStructTag f.valTag).1.wiretag) = .ok [fk, fv] ∧
        c = .map { wiretag := (parseStructTag text).1.wiretag
                   key := { wiretag := (parseStructTag f.keyTag).1.wiretag, tagsize := sizeOfVarint (parseStructTag f.keyTag).1.wiretag }
                   val := { wiretag := (parseStructTag f.valTag).1.wiretag, tagsize := sizeOfVarint (parseStructTag f.valTag).1.wiretag }
                   eKey := fk.tag.wiretag, eVal := fv.tag.wiretag
                   kzero := zeroOf K, vzero := zeroOf V } (lab G₂ kc) (lab G₂ vc) fk.codec fv.codec := by
      rcases wCodec_accepts { zigzag := (parseStructTag f.keyTag).1.zigzag, required := true } K with ⟨hsK, _⟩ | ⟨_, h⟩
      rotate_left
      · rw [hl₁] at h; cases h
      rcases wCodec_accepts { zigzag := (parseStructTag f.valTag).1.zigzag, required := true } V with ⟨hsV, _⟩ | ⟨_, h⟩
      rotate_left
      · rw [hl₂] at h; cases h
      have wk := parseStructTag_wire f.keyTag
      have wv := parseStructTag_wire f.valTag
      obtain ⟨et, e1, _⟩ := parse_formatWireTag (parseStructTag f.keyTag).1.wiretag (by rw [wiretag_type _ (by omega)]; exact wk)
      obtain ⟨ft, f1, _⟩ := parse_formatWireTag (parseStructTag f.valTag).1.wiretag (by rw [wiretag_type _ (by omega)]; exact wv)
      have hk : ∃ kd, tyCodec et [] [] K = .ok kd := by
        rw [tyCodec_eq _ _ _ _ (single_not_map hsK)]
        rcases tyCodec'_accepts et K (single_not_map hsK) with ⟨_, h⟩ | ⟨h, _⟩
        · exact h
        · exact absurd (.inl hsK) h
      have hv : ∃ vd, tyCodec ft [] [] V = .ok vd := by
        rw [tyCodec_eq _ _ _ _ (single_not_map hsV)]
        rcases tyCodec'_accepts ft V (single_not_map hsV) with ⟨_, h⟩ | ⟨h, _⟩
        · exact h
        · exact absurd (.inl hsV) h
      obtain ⟨kd, hk⟩ := hk
      obtain ⟨vd, hv⟩ := hv
      refine ⟨_, ?_, { offset := 0, tag := { wiretag := et.wiretag, tagsize := sizeOfVarint et.wiretag }, codec := kd },
        { offset := 1, tag := { wiretag := ft.wiretag, tagsize := sizeOfVarint ft.wiretag }, codec := vd }, ?_, rfl⟩
      · simp only [tyCodec, bind, Except.bind, pure, Except.pure, throw, throwThe, MonadExceptOf.throw]
        simp only [hl₁, hl₂, e1, f1, hk, hv, Bool.false_eq_true, if_false]
      · simp only [entryDecl, walkFields, fieldCodec, bind, Except.bind, pure, Except.pure, throw, throwThe, MonadExceptOf.throw, if_true,
          e1, f1, hk, hv, Bool.false_eq_true, if_false]
    rw [hc]
    refine safe_newCodec c fun m s₃ G₃ hle₃ hm₃ hlab₃ => ?_
    have hw₃ : WOK D r s₃ G₃ (w₂.setCodec (.map K V) (.heap m)) := (hw₂.mono hle₃).setCodec hm₃ (.map k f text K V _ hk hf he ht hT)
    have hr₃ : Ready must rank (nxt (measK rank (.anon (entryDecl K V (parseStructTag f.keyTag).1.wiretag (parseStructTag f.valTag).1.wiretag))))
        s₃ (w₂.setCodec (.map K V) (.heap m)) := by
      have hlt := entry_lt rank K V (parseStructTag f.keyTag).1.wiretag (parseStructTag f.valTag).1.wiretag
      refine Ready.setCodec ?_ ?_
      · exact fun hm => ((hr₂.mono hle₃).less fun a ha => ((hlt.trans (hlow hm))).nxt_le ha) hm
      · intro h
        unfold Lt nxt at *; simp only [measK, measD, entryDecl, meas, typeRank, typeSize] at *; omega
    refine (hrec _ _ (m :: P₂.1, P₂.2) s₃ G₃ (.entry k f text K V hk hf he ht hT) hw₃ hr₃).bind ?_
    rintro ⟨info, w₄⟩ s₄ G₄ P₄ hle₄ ⟨rfl, hw₄, ha₄, hk₄, hcl₄⟩
    have hle := hle₃.trans hle₄
    refine safe_setCodec (P := P₂) (hle₄.has hm₃) ?_ fun s₅ G₅ hle₅ hf₅ => ?_
    · rw [hle₄.lab hm₃, hlab₃]
      refine ⟨hle.has hh₁, hle.has hh₂, fun hm => ⟨hle.filled _ (hf₁ hm), hle.filled _ (hf₂ hm), hcl₄ (.inl hm)⟩, _, fk, fv, hk₄, hwalk, ?_⟩
      rw [hle.lab hh₁, hle.lab hh₂, hcm]
    · refine ⟨rfl, hw₄.mono hle₅, ?_, has_of_filled hf₅, fun _ => hf₅, by rw [(hle₄.trans hle₅).lab hm₃, hlab₃]⟩
      exact (ha₁.mono (hle.trans hle₅)).trans ((ha₄.mono hle₅).setCodec hf₅)
  · have hm' : ∀ k v, T ≠ .map k v := fun k v h => hm ⟨k, v, h⟩
    rw [tyCodecP_eq _ _ _ _ _ hm', tyCodec_eq _ _ _ _ hm']
    unfold tyCodecP' tyCodec'
    cases hfx : fixedCodec (parseStructTag text).1.wireType (.ty T) with
    | some c =>
      exact ⟨rfl, hw, Added.refl _ _, globOf_has c s, fun _ => globOf_filled c s, by rw [fixedCodec_glob hfx]⟩
    | none =>
      dsimp only
      have dflt : (∀ E, baseTypeOf T ≠ .slice E) → (∀ k v, baseTypeOf T ≠ .map k v) →
          Safe D must (CPost D must r w P (wCodec { zigzag := (parseStructTag text).1.zigzag, required := false } T))
            (wCodecP rec { zigzag := (parseStructTag text).1.zigzag, required := false } T w) P s G := fun h1 h2 =>
        wCodecP_safe hC hrec (.field k f _ T hk hf (.single text T he ht hT hfx h1 h2)) hw (hr.field hlow fun _ h => h)
      have collect : ∀ E, Asks f { zigzag := (parseStructTag text).1.zigzag, required := true } E →
          Collects f { zigzag := (parseStructTag text).1.zigzag, required := true } T E →
          (∀ a, Lt a (nxt (meas rank E)) → Lt a (nxt (meas rank T))) →
          Safe D must (CPost D must r w P ((wCodec { zigzag := (parseStructTag text).1.zigzag, required := true } E).bind fun c =>
              .ok (.slice (zeroOf E) c)))
            ((wCodecP rec { zigzag := (parseStructTag text).1.zigzag, required := true } E w).bind fun a =>
              sliceCodecP T (zeroOf E) a.1 a.2) P s G := by
        intro E hask hcol hlt
        refine (wCodecP_safe hC hrec (P := P) (.field k f _ E hk hf hask) hw (hr.field hlow hlt)).bind ?_
        rintro ⟨c, w₁⟩ s₁ G₁ P₁ hle₁ ⟨rfl, hw₁, ha₁, hh₁, hf₁, hl₁⟩
        have hr₁ := (hr.mono hle₁).added ha₁
        rw [hl₁]
        refine (sliceCodecP_safe hC hk hf hcol hl₁ hh₁ hf₁ hw₁ (hr₁.field hlow fun _ h => h)).imp ?_
        rintro ⟨p, w₂⟩ s₂ G₂ P₂ hle₂ ⟨h1, h2, h3, h4⟩
        exact ⟨h1, h2, (ha₁.mono hle₂).trans h3, h4⟩
      cases hb : baseTypeOf T with
      | map k v => trivial
      | slice B =>
        dsimp only
        rcases base_ptr_of_slice hb with rfl | ⟨E, rfl, hE⟩
        · by_cases hu : B = .uint8
          · subst hu
            exact ⟨rfl, hw, Added.refl _ _, trivial, fun _ => trivial, rfl⟩
          · have := collect B (.elem text B he ht hT hu) (.slice text B he ht hT hu) (by
              intro a ha; unfold Lt nxt at *; simp only [meas, typeRank, typeSize] at *; omega)
            cases B <;> first | exact absurd rfl hu | exact this
        · exact collect E (.pointee text E B he ht hT hE) (.pointer text E B he ht hT hE) (by
              intro a ha; unfold Lt nxt at *; simp only [meas, typeRank, typeSize] at *; omega)
      | _ => exact dflt (by intro E h; rw [hb] at h; cases h) (by intro k v h; rw [hb] at h; cases h)

theorem fieldCodecP_safe (hC : Consistent D r) (hA : must → Acyclic D rank) {rec : InfoKey → WProg Nat} (hrec : RecOK D must r rank rec)
    {k : InfoKey} {f : FieldDecl} {text : Text} {w : Walk} {P : Pend} {s : State} {G : Ghost} (hk : Within D r k)
    (hf : f ∈ k.decl D) (he : f.exported = true) (ht : f.tag = some text) (hw : WOK D r s G w) (hr : Ready must rank (measK rank k) s w) :
    Safe D must (CPost D must r w P (fieldCodec (parseStructTag text).1 f.keyTag f.valTag f.ty))
      (fieldCodecP rec (parseStructTag text).1 f.keyTag f.valTag f.ty w) P s G := by
  cases hT : f.ty with
  | ty T => exact tyCodecP_safe hC hrec hk hf he ht hT (fun hm => field_lt (hA hm) hf he ht hT) hw hr
  | opt b =>
    unfold fieldCodecP fieldCodec
    dsimp only
    cases hfx : fixedCodec (parseStructTag text).1.wireType (.opt b) with
    | some c =>
      exact ⟨rfl, hw, Added.refl _ _, globOf_has c s, fun _ => globOf_filled c s, by rw [fixedCodec_glob hfx]⟩
    | none =>
      dsimp only
      cases hox : optionCodec (parseStructTag text).1.zigzag b with
      | some c =>
        exact ⟨rfl, hw, Added.refl _ _, globOf_has c s, fun _ => globOf_filled c s, by rw [optionCodec_glob hox]⟩
      | none => trivial

/-! ### structs -/

/-- What the loop over the fields returns. -/
def FPost (D : Decls) (must : Prop) (r : TypeId) (w : Walk) (P : Pend) (E : Except Fault (List Field)) :
    State → Ghost → Pend → List FieldH × Walk → Prop := fun s G P' a =>
  P' = P ∧ WOK D r s G a.2 ∧ Added must s w a.2 ∧ E = .ok (a.1.map (labF G)) ∧ ∀ f ∈ a.1, s.has f.codec ∧ (must → s.filled f.codec)

theorem walkFieldsP_safe (hC : Consistent D r) (hA : must → Acyclic D rank) {rec : InfoKey → WProg Nat} (hrec : RecOK D must r rank rec)
    {k : InfoKey} (hk : Within D r k) : ∀ {d : StructDecl} {i : Nat} {w : Walk} {P : Pend} {s : State} {G : Ghost}, (∀ f ∈ d, f ∈ k.decl D) →
      WOK D r s G w → Ready must rank (measK rank k) s w →
      Safe D must (FPost D must r w P (walkFields i d)) (walkFieldsP rec i d w) P s G := by
  intro d
  induction d with
  | nil =>
    intro i w P s G _ hw hr
    exact ⟨rfl, hw, Added.refl _ _, rfl, by simp⟩
  | cons f d ih =>
    intro i w P s G hd hw hr
    have hd' : ∀ g ∈ d, g ∈ k.decl D := fun g hg => hd g (List.mem_cons_of_mem _ hg)
    have hf : f ∈ k.decl D := hd f List.mem_cons_self
    unfold walkFieldsP walkFields
    by_cases he : f.exported = true
    · simp only [he, if_true]
      cases ht : f.tag with
      | none => exact ih hd' hw hr
      | some text =>
        dsimp only
        by_cases hp : (parseStructTag text).2 = true
        · simp only [if_pos hp]; trivial
        · simp only [if_neg hp]
          refine (fieldCodecP_safe hC hA hrec (P := P) hk hf he ht hw hr).bind ?_
          rintro ⟨c, w₁⟩ s₁ G₁ P₁ hle₁ ⟨rfl, hw₁, ha₁, hh₁, hf₁, hl₁⟩
          refine (ih (P := P₁) hd' hw₁ ((hr.mono hle₁).added ha₁)).bind ?_
          rintro ⟨fs, w₂⟩ s₂ G₂ P₂ hle₂ ⟨rfl, hw₂, ha₂, hl₂, hf₂⟩
          refine ⟨rfl, hw₂, (ha₁.mono hle₂).trans ha₂, ?_, ?_⟩
          · dsimp only at hl₁ hl₂
            simp only [bind, Except.bind, pure, Except.pure]
            rw [hl₁]
            simp only
            rw [hl₂]
            simp only [List.map_cons, labF]
            rw [hle₂.lab hh₁]
          · intro g hg
            rcases List.mem_cons.mp hg with rfl | hg
            · exact ⟨hle₂.has hh₁, fun hm => hle₂.filled _ (hf₁ hm)⟩
            · exact hf₂ g hg
    · rw [if_neg he, if_neg he]
      exact ih hd' hw hr

theorem WOK.setInfo {s : State} {G : Ghost} {w : Walk} {k : InfoKey} {i : Nat} (h : WOK D r s G w) (hi : s.keyIs i k) :
    WOK D r s G { w with infos := upd w.infos k (some i) } where
  codecs := h.codecs
  infos k' j hj := by
    rcases upd_some hj with h1 | ⟨rfl, rfl⟩
    · exact h.infos _ _ h1
    · exact hi

theorem structInfoP_safe (hC : Consistent D r) (hA : must → Acyclic D rank) : ∀ d, RecOK D must r rank (structInfoP D d)
  | 0 => fun _ _ _ _ _ _ _ _ => trivial
  | d + 1 => by
    intro k w P s G hk hw hr
    unfold structInfoP
    refine safe_read (o := .infoLoad k) (fun _ => rfl) fun s₁ G₁ hle₁ hI₁ => ?_
    simp only [exec]
    replace hw := hw.mono hle₁
    replace hr := hr.mono hle₁
    clear hle₁
    cases hl : s₁.infoCache k with
    | some i =>
      obtain ⟨h1, h2⟩ := hI₁.infoCache _ _ hl
      exact ⟨rfl, hw, Added.refl _ _, h1, fun _ => h2⟩
    | none =>
      show Safe D must _ (match w.infos k with
        | some c => _
        | none => _) P s₁ G₁
      cases hwi : w.infos k with
      | some i =>
        refine ⟨rfl, hw, Added.refl _ _, hw.infos _ _ hwi, fun hm => hm.elim (fun hm => (hr hm).2 _ _ hwi (lt_nxt _)) fun h => ?_⟩
        rw [hwi] at h; cases h
      | none =>
        refine safe_newInfo fun i s₂ G₂ hle₂ hk₂ => ?_
        have hw₂ := (hw.mono hle₂).setInfo hk₂
        have hr₂ : Ready must rank (measK rank k) s₂ { w with infos := upd w.infos k (some i) } := by
          intro hm
          have h1 := (hr.mono hle₂).less (fun a ha => ha.trans (lt_nxt (measK rank k))) hm
          refine ⟨h1.1, fun k' j hj hlt => ?_⟩
          rcases upd_some hj with h2 | ⟨rfl, rfl⟩
          · exact h1.2 _ _ h2 hlt
          · unfold Lt at hlt; omega
        refine (walkFieldsP_safe hC hA (structInfoP_safe hC hA d) (P := (P.1, i :: P.2)) hk (fun f hf => hf) hw₂ hr₂).bind ?_
        rintro ⟨fs, w₃⟩ s₃ G₃ P₃ hle₃ ⟨rfl, hw₃, ha₃, hl₃, hf₃⟩
        refine safe_setInfo (P := P) (hle₃.key _ _ hk₂) ⟨hl₃, hf₃⟩ fun s₄ G₄ hle₄ hc₄ => ?_
        refine safe_infoStore ((hle₃.trans hle₄).key _ _ hk₂) hc₄ fun s₅ G₅ hle₅ => ?_
        have hle := hle₄.trans hle₅
        refine ⟨rfl, hw₃.mono hle, fun hm => ⟨((ha₃.mono hle) hm).1, fun k' j hj => ?_⟩, (hle₃.trans hle).key _ _ hk₂, fun _ => hle₅.closed _ hc₄⟩
        rcases ((ha₃.mono hle) hm).2 k' j hj with h1 | h1
        · rcases upd_some h1 with h2 | ⟨rfl, rfl⟩
          · exact .inl h2
          · exact .inr (hle₅.closed _ hc₄)
        · exact .inr h1

/-- What `cachedStructInfoOf` returns. -/
def RPost (t : TypeId) : State → Ghost → Pend → Nat → Prop := fun s _ P i =>
  P = ([], []) ∧ s.keyIs i (.named t) ∧ s.closed i

theorem cachedStructInfoOf_safe (hC : Consistent D r) (hA : must → Acyclic D rank) (d : Nat) (s : State) (G : Ghost) :
    Safe D must (RPost r) (cachedStructInfoOf D d r) ([], []) s G := by
  unfold cachedStructInfoOf
  refine safe_read (o := .infoLoad (.named r)) (fun _ => rfl) fun s₁ G₁ hle₁ hI₁ => ?_
  simp only [exec]
  cases hl : s₁.infoCache (.named r) with
  | some i =>
    obtain ⟨h1, h2⟩ := hI₁.infoCache _ _ hl
    exact ⟨rfl, h1, h2⟩
  | none =>
    have hw : WOK D r s₁ G₁ Walk.init := ⟨fun _ _ h => (by cases h), fun _ _ h => (by cases h)⟩
    have hr : Ready must rank (nxt (measK rank (.named r))) s₁ Walk.init :=
      fun _ => ⟨fun _ _ h => (by cases h), fun _ _ h => (by cases h)⟩
    refine (structInfoP_safe hC hA d (.named r) Walk.init ([], []) s₁ G₁ .root hw hr).bind ?_
    rintro ⟨i, w⟩ s₂ G₂ P₂ hle₂ ⟨rfl, hw₂, _, hk₂, hc₂⟩
    exact safe_infoLoadOrStore hk₂ (hc₂ (.inr rfl)) fun j s₃ G₃ _ hk₃ hc₃ => ⟨rfl, hk₃, hc₃⟩

/-! ### any number of goroutines -/

/-- The invariant of the process. `Ps` are the unfinished codecs and type infos of the goroutines. -/
structure SysInv (D : Decls) (must : Prop) (s : Sys) (G : Ghost) (Ps : List Pend) : Prop where
  inv : Inv D must s.state G
  len : Ps.length = s.threads.length
  safe : ∀ (n : Nat) (t : Thread) (P : Pend), s.threads[n]? = some t → Ps[n]? = some P → Safe D must (RPost t.root) t.prog P s.state G
  openC : ∀ m, s.state.openC m → ∃ P ∈ Ps, m ∈ P.1
  openI : ∀ m, s.state.openI m → ∃ P ∈ Ps, m ∈ P.2

theorem rpost_mono {t : TypeId} {s s' : State} {G G' : Ghost} (h : Le s G s' G') (a : Nat) (P : Pend) (hq : RPost t s G P a) :
    RPost t s' G' P a := ⟨hq.1, h.key _ _ hq.2.1, h.closed _ hq.2.2⟩

/-- The invariant holds in every state the process can get into. -/
theorem sysInv (hA : must → Acyclic D rank) {s : Sys} (h : Reachable D s) (hC : ∀ t ∈ s.threads, Consistent D t.root) :
    ∃ G Ps, SysInv D must s G Ps := by
  induction h with
  | init =>
    refine ⟨fun _ => .bytes, [], Inv.init _, rfl, ?_, ?_, ?_⟩
    · intro n t P hn; simp at hn
    · intro m hm; simp [State.openC, State.init] at hm
    · intro m hm; simp [State.openI, State.init] at hm
  | step s s' _ hst ih =>
    cases hst with
    | call d t =>
      obtain ⟨G, Ps, hI⟩ := ih fun t ht => hC t (List.mem_append_left _ ht)
      have hCt := hC { root := t, prog := cachedStructInfoOf D d t } (List.mem_append_right _ List.mem_cons_self)
      refine ⟨G, Ps ++ [([], [])], hI.inv, by simp [hI.len], ?_, ?_, ?_⟩
      · intro n t' P hn hP
        simp only at hn
        rw [List.getElem?_append] at hn hP
        rw [hI.len] at hP
        split at hn
        · rename_i hlt
          rw [if_pos hlt] at hP
          exact hI.safe n t' P hn hP
        · rename_i hlt
          rw [if_neg hlt] at hP
          have h1 := (List.getElem?_eq_some_iff.mp hn).1
          simp only [List.length_singleton] at h1
          rw [show n - s.threads.length = 0 by omega] at hn hP
          simp only [List.getElem?_cons_zero, Option.some.injEq] at hn hP
          subst hn hP
          exact cachedStructInfoOf_safe hCt hA d _ _
      · intro m hm
        obtain ⟨P, hP, hmP⟩ := hI.openC m hm
        exact ⟨P, List.mem_append_left _ hP, hmP⟩
      · intro m hm
        obtain ⟨P, hP, hmP⟩ := hI.openI m hm
        exact ⟨P, List.mem_append_left _ hP, hmP⟩
    | run n t o k hn =>
      have hC' : ∀ t ∈ s.threads, Consistent D t.root := by
        intro t' ht'
        obtain ⟨j, hj⟩ := List.mem_iff_getElem?.mp ht'
        by_cases hjn : j = n
        · subst hjn
          rw [hn] at hj
          cases hj
          exact hC { root := t, prog := k (exec o s.state).1 }
            (List.mem_iff_getElem?.mpr ⟨j, by rw [List.getElem?_set_self (List.getElem?_eq_some_iff.mp hn).1]⟩)
        · exact hC t' (List.mem_iff_getElem?.mpr ⟨j, by rw [List.getElem?_set_ne (fun h => hjn h.symm)]; exact hj⟩)
      obtain ⟨G, Ps, hI⟩ := ih hC'
      have hlt : n < Ps.length := by rw [hI.len]; exact (List.getElem?_eq_some_iff.mp hn).1
      obtain ⟨P, hP⟩ : ∃ P, Ps[n]? = some P := ⟨Ps[n], by simp [hlt]⟩
      obtain ⟨G₂, P₂, hle, hI₂, hacct, hsafe⟩ := hI.safe n _ P hn hP s.state G (Le.refl _ _) hI.inv
      refine ⟨G₂, Ps.set n P₂, hI₂, by simp [hI.len], ?_, ?_, ?_⟩
      · intro j t' P' hj hP'
        simp only at hj ⊢
        by_cases hjn : j = n
        · subst hjn
          rw [List.getElem?_set_self (List.getElem?_eq_some_iff.mp hn).1] at hj
          rw [List.getElem?_set_self hlt] at hP'
          cases hj; cases hP'
          exact hsafe
        · rw [List.getElem?_set_ne (fun h => hjn h.symm)] at hj hP'
          exact (hI.safe j t' P' hj hP').mono hle (rpost_mono hle)
      · intro m hm
        rcases hacct.1 m hm with h1 | ⟨h1, h2⟩
        · exact ⟨P₂, List.mem_iff_getElem?.mpr ⟨n, List.getElem?_set_self hlt⟩, h1⟩
        · obtain ⟨P', hP', hmP'⟩ := hI.openC m h1
          obtain ⟨j, hj⟩ := List.mem_iff_getElem?.mp hP'
          have hjn : j ≠ n := by
            rintro rfl
            rw [hP] at hj
            cases hj
            exact h2 hmP'
          exact ⟨P', List.mem_iff_getElem?.mpr ⟨j, by rw [List.getElem?_set_ne (fun h => hjn h.symm)]; exact hj⟩, hmP'⟩
      · intro m hm
        rcases hacct.2 m hm with h1 | ⟨h1, h2⟩
        · exact ⟨P₂, List.mem_iff_getElem?.mpr ⟨n, List.getElem?_set_self hlt⟩, h1⟩
        · obtain ⟨P', hP', hmP'⟩ := hI.openI m h1
          obtain ⟨j, hj⟩ := List.mem_iff_getElem?.mp hP'
          have hjn : j ≠ n := by
            rintro rfl
            rw [hP] at hj
            cases hj
            exact h2 hmP'
          exact ⟨P', List.mem_iff_getElem?.mpr ⟨j, by rw [List.getElem?_set_ne (fun h => hjn h.symm)]; exact hj⟩, hmP'⟩

end Pb.Cache
