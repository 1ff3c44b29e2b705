import Verif.Spec.Cache
import Verif.Proofs.Accept
/-
Shared state of type analysis: what stays true of it whatever the goroutines do, and a logic for programs that keep it true.
-/
namespace Pb.Cache

/-! ### facts about addresses -/

/-- What each allocated codec is meant to become. -/
abbrev Ghost := Nat → Codec

/-- What a pointer to a codec is meant to be. -/
def lab (G : Ghost) : CPtr → Codec
  | .glob g => g.codec
  | .heap n => G n

/-- The pointer is valid. -/
def State.has (s : State) : CPtr → Prop
  | .glob _ => True
  | .heap n => n < s.codecs.length

/-- The codec has its functions. -/
def State.filled (s : State) : CPtr → Prop
  | .glob _ => True
  | .heap n => ∃ b, s.codecs[n]? = some (some b)

/-- The type info belongs to the type `k`. -/
def State.keyIs (s : State) (i : Nat) (k : InfoKey) : Prop := ∃ fs, s.infos[i]? = some ⟨k, fs⟩

/-- The type info has its fields. -/
def State.closed (s : State) (i : Nat) : Prop := ∃ k fs, s.infos[i]? = some ⟨k, some fs⟩

/-- A field with what its codec is meant to be. -/
def labF (G : Ghost) (f : FieldH) : Field := { offset := f.offset, tag := f.tag, codec := lab G f.codec }

/-- The state and the labels only grow. -/
structure Le (s : State) (G : Ghost) (s' : State) (G' : Ghost) : Prop where
  len : s.codecs.length ≤ s'.codecs.length
  same : ∀ n, n < s.codecs.length → G' n = G n
  filled : ∀ p, s.filled p → s'.filled p
  key : ∀ i k, s.keyIs i k → s'.keyIs i k
  closed : ∀ i, s.closed i → s'.closed i

theorem Le.refl (s : State) (G : Ghost) : Le s G s G := ⟨Nat.le_refl _, fun _ _ => rfl, fun _ h => h, fun _ _ h => h, fun _ h => h⟩

theorem Le.trans {s s' s'' : State} {G G' G'' : Ghost} (h : Le s G s' G') (h' : Le s' G' s'' G'') : Le s G s'' G'' :=
  ⟨Nat.le_trans h.len h'.len, fun n hn => (h'.same n (Nat.lt_of_lt_of_le hn h.len)).trans (h.same n hn),
   fun p hp => h'.filled p (h.filled p hp), fun i k hk => h'.key i k (h.key i k hk), fun i hi => h'.closed i (h.closed i hi)⟩

theorem Le.has {s s' : State} {G G' : Ghost} (h : Le s G s' G') {p : CPtr} (hp : s.has p) : s'.has p := by
  cases p with
  | glob g => trivial
  | heap n => exact Nat.lt_of_lt_of_le hp h.len

theorem Le.lab {s s' : State} {G G' : Ghost} (h : Le s G s' G') {p : CPtr} (hp : s.has p) : lab G' p = lab G p := by
  cases p with
  | glob g => rfl
  | heap n => exact h.same n hp

theorem has_of_filled {s : State} {p : CPtr} (h : s.filled p) : s.has p := by
  cases p with
  | glob g => trivial
  | heap n =>
    obtain ⟨b, hb⟩ := h
    exact (List.getElem?_eq_some_iff.mp hb).1

/-- The zero value that `newarray` gives for the elements an element codec works on. -/
def zeroC : Codec → Val
  | .normal s | .required s | .option s =>
    match s with
    | .bool => .b8 false
    | .string => .str []
    | .float32 | .int32 | .uint32 | .fixed32 | .zigzag32 => .w32 0#32
    | .float64 | .int64 | .uint64 | .fixed64 | .zigzag64 => .w64 0#64
  | .bytes => .bytes none
  | .ptr _ _ | .msg _ => .nilp
  | .slice _ _ => .slice true [] []
  | .map _ _ _ _ _ => .map true []

theorem wCodec_zero (conf : Conf) (T : GoType) (c : Codec) (h : wCodec conf T = .ok c) : zeroOf T = zeroC c := by
  obtain ⟨z, r⟩ := conf
  cases T with
  | ptr T =>
    by_cases hn : ∃ t, T = .named t
    · obtain ⟨t, rfl⟩ := hn
      cases h; rfl
    · rw [wCodec_ptr _ _ (fun t ht => hn ⟨t, ht⟩)] at h
      generalize wCodec ⟨z, r⟩ T = q at h
      rcases q with e | c'
      · cases h
      · cases h; rfl
  | slice T =>
    by_cases hu : T = .uint8
    · subst hu; cases h; rfl
    · rw [wCodec_slice _ _ hu] at h; cases h
  | _ => cases r <;> cases z <;> cases h <;> rfl

variable (D : Decls) (must : Prop)

/-- The functions of a codec are those it is meant to have. If `must`, what they refer to is filled in. -/
def BodyOK (s : State) (G : Ghost) : CBody → Codec → Prop
  | .ptr z p, c => c = .ptr z (lab G p) ∧ s.has p ∧ (must → s.filled p)
  | .msg t i, c => c = .msg t ∧ s.keyIs i (.named t) ∧ (must → s.closed i)
  | .slice z p, c => c = .slice z (lab G p) ∧ s.has p ∧ (must → s.filled p)
  | .map i kc vc info, c => s.has kc ∧ s.has vc ∧ (must → s.filled kc ∧ s.filled vc ∧ s.closed info) ∧
    ∃ k fk fv, s.keyIs info k ∧ walkFields 0 (k.decl D) = .ok [fk, fv] ∧
      c = .map { i with eKey := fk.tag.wiretag, eVal := fv.tag.wiretag } (lab G kc) (lab G vc) fk.codec fv.codec

/-- What stays true of the shared state. -/
structure Inv (s : State) (G : Ghost) : Prop where
  body : ∀ (n : Nat) b, s.codecs[n]? = some (some b) → BodyOK D must s G b (G n)
  info : ∀ (i : Nat) k fs, s.infos[i]? = some ⟨k, some fs⟩ → walkFields 0 (k.decl D) = .ok (fs.map (labF G)) ∧
    ∀ f ∈ fs, s.has f.codec ∧ (must → s.filled f.codec)
  infoCache : ∀ k i, s.infoCache k = some i → s.keyIs i k ∧ s.closed i
  codecCache : ∀ t p, s.codecCache t = some p → s.filled p ∧ lab G p = .msg t
  sliceMap : ∀ c p, s.sliceMap c = some p → s.has c ∧ s.filled p ∧ lab G p = .slice (zeroC (lab G c)) (lab G c)

variable {D must}

theorem BodyOK.mono {s s' : State} {G G' : Ghost} (h : Le s G s' G') {b : CBody} {c : Codec} (hb : BodyOK D must s G b c) :
    BodyOK D must s' G' b c := by
  cases b with
  | ptr z p =>
    obtain ⟨h1, h2, h3⟩ := hb
    exact ⟨by rw [h.lab h2]; exact h1, h.has h2, fun m => h.filled _ (h3 m)⟩
  | msg t i =>
    obtain ⟨h1, h2, h3⟩ := hb
    exact ⟨h1, h.key _ _ h2, fun m => h.closed _ (h3 m)⟩
  | slice z p =>
    obtain ⟨h1, h2, h3⟩ := hb
    exact ⟨by rw [h.lab h2]; exact h1, h.has h2, fun m => h.filled _ (h3 m)⟩
  | map i kc vc info =>
    obtain ⟨h1, h2, h3, k, fk, fv, h4, h5, h6⟩ := hb
    refine ⟨h.has h1, h.has h2, fun m => ?_, k, fk, fv, h.key _ _ h4, h5, ?_⟩
    · obtain ⟨a, b, c⟩ := h3 m
      exact ⟨h.filled _ a, h.filled _ b, h.closed _ c⟩
    · rw [h.lab h1, h.lab h2]; exact h6

theorem info_mono {s s' : State} {G G' : Ghost} (h : Le s G s' G') {k : InfoKey} {fs : List FieldH}
    (hi : walkFields 0 (k.decl D) = .ok (fs.map (labF G)) ∧ ∀ f ∈ fs, s.has f.codec ∧ (must → s.filled f.codec)) :
    walkFields 0 (k.decl D) = .ok (fs.map (labF G')) ∧ ∀ f ∈ fs, s'.has f.codec ∧ (must → s'.filled f.codec) := by
  refine ⟨?_, fun f hf => ⟨h.has (hi.2 f hf).1, fun m => h.filled _ ((hi.2 f hf).2 m)⟩⟩
  rw [hi.1]
  congr 1
  apply List.map_congr_left
  intro f hf
  simp only [labF, h.lab (hi.2 f hf).1]

/-- What is left to check after a step. -/
theorem Inv.mono {s s' : State} {G G' : Ghost} (hI : Inv D must s G) (h : Le s G s' G')
    (body : ∀ (n : Nat) b, s'.codecs[n]? = some (some b) → s.codecs[n]? = some (some b) ∧ G' n = G n ∨ BodyOK D must s' G' b (G' n))
    (info : ∀ (i : Nat) k fs, s'.infos[i]? = some ⟨k, some fs⟩ → s.infos[i]? = some ⟨k, some fs⟩ ∨
      (walkFields 0 (k.decl D) = .ok (fs.map (labF G')) ∧ ∀ f ∈ fs, s'.has f.codec ∧ (must → s'.filled f.codec)))
    (infoCache : ∀ k i, s'.infoCache k = some i → s.infoCache k = some i ∨ (s'.keyIs i k ∧ s'.closed i))
    (codecCache : ∀ t p, s'.codecCache t = some p → s.codecCache t = some p ∨ (s'.filled p ∧ lab G' p = .msg t))
    (sliceMap : ∀ c p, s'.sliceMap c = some p → s.sliceMap c = some p ∨
      (s'.has c ∧ s'.filled p ∧ lab G' p = .slice (zeroC (lab G' c)) (lab G' c))) : Inv D must s' G' where
  body n b hb := by
    rcases body n b hb with ⟨h1, h2⟩ | h1
    · rw [h2]; exact (hI.body n b h1).mono h
    · exact h1
  info i k fs hi := by
    rcases info i k fs hi with h1 | h1
    · exact info_mono h (hI.info i k fs h1)
    · exact h1
  infoCache k i hk := by
    rcases infoCache k i hk with h1 | h1
    · exact ⟨h.key _ _ (hI.infoCache k i h1).1, h.closed _ (hI.infoCache k i h1).2⟩
    · exact h1
  codecCache t p hp := by
    rcases codecCache t p hp with h1 | h1
    · have := hI.codecCache t p h1
      exact ⟨h.filled _ this.1, by rw [h.lab (has_of_filled this.1)]; exact this.2⟩
    · exact h1
  sliceMap c p hp := by
    rcases sliceMap c p hp with h1 | h1
    · obtain ⟨a, b, d⟩ := hI.sliceMap c p h1
      exact ⟨h.has a, h.filled _ b, by rw [h.lab (has_of_filled b), h.lab a]; exact d⟩
    · exact h1

theorem Inv.init (G : Ghost) : Inv D must .init G where
  body n b h := by simp [State.init] at h
  info i k fs h := by simp [State.init] at h
  infoCache k i h := by simp [State.init] at h
  codecCache t p h := by simp [State.init] at h
  sliceMap c p h := by simp [State.init] at h

/-! ### programs that keep it true -/

/-- Codecs and type infos that a goroutine has allocated and not yet filled in. -/
abbrev Pend := List Nat × List Nat

/-- The codec `n` is allocated and not filled in. -/
def State.openC (s : State) (n : Nat) : Prop := s.codecs[n]? = some none

/-- The type info `i` is allocated and not filled in. -/
def State.openI (s : State) (i : Nat) : Prop := ∃ k, s.infos[i]? = some ⟨k, none⟩

/-- A step of a goroutine accounts for what is not filled in. -/
def Acct (s : State) (P : Pend) (s' : State) (P' : Pend) : Prop :=
  (∀ n, s'.openC n → n ∈ P'.1 ∨ s.openC n ∧ n ∉ P.1) ∧ (∀ i, s'.openI i → i ∈ P'.2 ∨ s.openI i ∧ i ∉ P.2)

theorem Acct.refl (s : State) (P : Pend) : Acct s P s P :=
  ⟨fun n h => (Classical.em (n ∈ P.1)).imp id fun h' => ⟨h, h'⟩, fun n h => (Classical.em (n ∈ P.2)).imp id fun h' => ⟨h, h'⟩⟩

variable (D must)

/-- `Safe Q p P s G`: from the state `s`, and with other goroutines running at the same time, the program `p` keeps the
invariant, and if it returns `Q` holds then. -/
def Safe {α : Type} (Q : State → Ghost → Pend → α → Prop) : Prog α → Pend → State → Ghost → Prop
  | .ret a, P, s, G => Q s G P a
  | .panic, _, _, _ => True
  | .stuck, _, _, _ => True
  | .op o k, P, s, G => ∀ s₁ G₁, Le s G s₁ G₁ → Inv D must s₁ G₁ → ∃ G₂ P₂,
      Le s₁ G₁ (exec o s₁).2 G₂ ∧ Inv D must (exec o s₁).2 G₂ ∧ Acct s₁ P (exec o s₁).2 P₂ ∧
      Safe Q (k (exec o s₁).1) P₂ (exec o s₁).2 G₂

variable {D must}

theorem Safe.bind {α β : Type} {Q' : State → Ghost → Pend → α → Prop} {Q : State → Ghost → Pend → β → Prop} {f : α → Prog β} :
    ∀ {p : Prog α} {P : Pend} {s : State} {G : Ghost}, Safe D must Q' p P s G →
      (∀ a s' G' P', Le s G s' G' → Q' s' G' P' a → Safe D must Q (f a) P' s' G') → Safe D must Q (p.bind f) P s G
  | .ret a, P, s, G, h, hf => hf a s G P (Le.refl s G) h
  | .panic, _, _, _, _, _ => trivial
  | .stuck, _, _, _, _, _ => trivial
  | .op o k, P, s, G, h, hf => by
    intro s₁ G₁ hle hI
    obtain ⟨G₂, P₂, h1, h2, h3, h4⟩ := h s₁ G₁ hle hI
    exact ⟨G₂, P₂, h1, h2, h3, h4.bind fun a s' G' P' hle' hq => hf a s' G' P' ((hle.trans h1).trans hle') hq⟩

theorem Safe.imp {α : Type} {Q' Q : State → Ghost → Pend → α → Prop} :
    ∀ {p : Prog α} {P : Pend} {s : State} {G : Ghost}, Safe D must Q' p P s G →
      (∀ a s' G' P', Le s G s' G' → Q' s' G' P' a → Q s' G' P' a) → Safe D must Q p P s G
  | .ret a, P, s, G, h, hf => hf a s G P (Le.refl s G) h
  | .panic, _, _, _, _, _ => trivial
  | .stuck, _, _, _, _, _ => trivial
  | .op o k, P, s, G, h, hf => by
    intro s₁ G₁ hle hI
    obtain ⟨G₂, P₂, h1, h2, h3, h4⟩ := h s₁ G₁ hle hI
    exact ⟨G₂, P₂, h1, h2, h3, h4.imp fun a s' G' P' hle' hq => hf a s' G' P' ((hle.trans h1).trans hle') hq⟩

/-- Other goroutines do not disturb a safe program. -/
theorem Safe.mono {α : Type} {Q : State → Ghost → Pend → α → Prop} {s s' : State} {G G' : Ghost} (h : Le s G s' G')
    (hQ : ∀ a P, Q s G P a → Q s' G' P a) {p : Prog α} {P : Pend} (hp : Safe D must Q p P s G) : Safe D must Q p P s' G' := by
  cases p with
  | ret a => exact hQ a P hp
  | panic => trivial
  | stuck => trivial
  | op o k => exact fun s₁ G₁ hle hI => hp s₁ G₁ (h.trans hle) hI

theorem safe_read {α : Type} {Q : State → Ghost → Pend → α → Prop} {o : Op} {k : o.Resp → Prog α} {P : Pend} {s : State} {G : Ghost}
    (ho : ∀ s, (exec o s).2 = s)
    (h : ∀ s₁ G₁, Le s G s₁ G₁ → Inv D must s₁ G₁ → Safe D must Q (k (exec o s₁).1) P s₁ G₁) :
    Safe D must Q (.op o k) P s G := by
  intro s₁ G₁ hle hI
  refine ⟨G₁, P, ?_⟩
  rw [ho s₁]
  exact ⟨Le.refl _ _, hI, Acct.refl _ _, h s₁ G₁ hle hI⟩

theorem upd_some {α β : Type} [DecidableEq α] {m : α → Option β} {a x : α} {b y : β} (h : upd m a (some b) x = some y) :
    m x = some y ∨ x = a ∧ b = y := by
  unfold upd at h
  split at h
  · exact .inr ⟨by assumption, by cases h; rfl⟩
  · exact .inl h

/-- `new(structInfo)` -/
theorem safe_newInfo {α : Type} {Q : State → Ghost → Pend → α → Prop} {key : InfoKey} {k : Nat → Prog α} {P : Pend} {s : State} {G : Ghost}
    (h : ∀ i s₂ G₂, Le s G s₂ G₂ → s₂.keyIs i key → Safe D must Q (k i) (P.1, i :: P.2) s₂ G₂) :
    Safe D must Q (.op (.newInfo key) k) P s G := by
  intro s₁ G₁ hle hI
  have hle' : Le s₁ G₁ (exec (.newInfo key) s₁).2 G₁ := by
    refine ⟨Nat.le_refl _, fun _ _ => rfl, fun p hp => ?_, ?_, ?_⟩
    · cases p <;> exact hp
    · rintro i k ⟨fs, hi⟩
      exact ⟨fs, by simp only [exec]; rw [List.getElem?_append_left (List.getElem?_eq_some_iff.mp hi).1]; exact hi⟩
    · rintro i ⟨k, fs, hi⟩
      exact ⟨k, fs, by simp only [exec]; rw [List.getElem?_append_left (List.getElem?_eq_some_iff.mp hi).1]; exact hi⟩
  have hnew : ∀ (i : Nat) (o : InfoObj), (exec (.newInfo key) s₁).2.infos[i]? = some o → s₁.infos[i]? = some o ∨
      i = s₁.infos.length ∧ o = ⟨key, none⟩ := by
    intro i o ho
    simp only [exec] at ho
    rw [List.getElem?_append] at ho
    split at ho
    · exact .inl ho
    · rename_i hlt
      right
      have h2 := (List.getElem?_eq_some_iff.mp ho).1
      simp at h2
      have : i = s₁.infos.length := by omega
      subst this
      simp at ho
      exact ⟨rfl, ho.symm⟩
  refine ⟨G₁, (P.1, s₁.infos.length :: P.2), hle', ?_, ⟨?_, ?_⟩, ?_⟩
  · refine hI.mono hle' (fun n b hb => .inl ⟨hb, rfl⟩) (fun i k fs hi => ?_) (fun _ _ h => .inl h) (fun _ _ h => .inl h) (fun _ _ h => .inl h)
    rcases hnew i _ hi with h1 | ⟨_, h1⟩
    · exact .inl h1
    · cases h1
  · intro n hn
    exact (Classical.em (n ∈ P.1)).imp id fun h' => ⟨hn, h'⟩
  · rintro i ⟨k', hi⟩
    rcases hnew i _ hi with h1 | ⟨h1, _⟩
    · by_cases hm : i ∈ P.2
      · exact .inl (List.mem_cons_of_mem _ hm)
      · exact .inr ⟨⟨k', h1⟩, hm⟩
    · exact .inl (h1 ▸ List.mem_cons_self)
  · exact h _ _ _ (hle.trans hle') ⟨none, by simp [exec]⟩

/-- `info.fields = fs` -/
theorem safe_setInfo {α : Type} {Q : State → Ghost → Pend → α → Prop} {i : Nat} {key : InfoKey} {fs : List FieldH} {k : Unit → Prog α}
    {P : Pend} {s : State} {G : Ghost} (hk : s.keyIs i key)
    (hw : walkFields 0 (key.decl D) = .ok (fs.map (labF G)) ∧ ∀ f ∈ fs, s.has f.codec ∧ (must → s.filled f.codec))
    (h : ∀ s₂ G₂, Le s G s₂ G₂ → s₂.closed i → Safe D must Q (k ()) P s₂ G₂) :
    Safe D must Q (.op (.setInfo i fs) k) (P.1, i :: P.2) s G := by
  intro s₁ G₁ hle hI
  obtain ⟨fs', hi⟩ := hle.key _ _ hk
  have hget : ∀ j, (exec (.setInfo i fs) s₁).2.infos[j]? = if j = i then some ⟨key, some fs⟩ else s₁.infos[j]? := by
    intro j
    simp only [exec]
    rw [List.getElem?_modify]
    split
    · rename_i h1; subst h1; rw [hi]; simp
    · rename_i h1; rw [if_neg (fun h2 => h1 h2.symm)]; simp
  have hle' : Le s₁ G₁ (exec (.setInfo i fs) s₁).2 G₁ := by
    refine ⟨Nat.le_refl _, fun _ _ => rfl, fun p hp => ?_, ?_, ?_⟩
    · cases p <;> exact hp
    · rintro j k ⟨gs, hj⟩
      by_cases hji : j = i
      · subst hji
        rw [hi] at hj
        cases hj
        exact ⟨some fs, by rw [hget, if_pos rfl]⟩
      · exact ⟨gs, by rw [hget, if_neg hji]; exact hj⟩
    · rintro j ⟨k, gs, hj⟩
      by_cases hji : j = i
      · exact ⟨key, fs, by rw [hget, if_pos hji]⟩
      · exact ⟨k, gs, by rw [hget, if_neg hji]; exact hj⟩
  have hw' := info_mono (hle.trans hle') hw
  refine ⟨G₁, P, hle', ?_, ⟨?_, ?_⟩, ?_⟩
  · refine hI.mono hle' (fun n b hb => .inl ⟨hb, rfl⟩) (fun j k gs hj => ?_) (fun _ _ h => .inl h) (fun _ _ h => .inl h) (fun _ _ h => .inl h)
    rw [hget] at hj
    split at hj
    · cases hj; exact .inr hw'
    · exact .inl hj
  · intro n hn
    exact (Classical.em (n ∈ P.1)).imp id fun h' => ⟨hn, h'⟩
  · rintro j ⟨k', hj⟩
    rw [hget] at hj
    split at hj
    · cases hj
    · rename_i hji
      by_cases hm : j ∈ P.2
      · exact .inl hm
      · exact .inr ⟨⟨k', hj⟩, by simp [hji, hm]⟩
  · exact h _ _ (hle.trans hle') ⟨key, fs, by rw [hget, if_pos rfl]⟩

/-- `new(codec)`, meant to become `c` -/
theorem safe_newCodec {α : Type} {Q : State → Ghost → Pend → α → Prop} (c : Codec) {k : Nat → Prog α} {P : Pend} {s : State} {G : Ghost}
    (h : ∀ n s₂ G₂, Le s G s₂ G₂ → s₂.has (.heap n) → lab G₂ (.heap n) = c → Safe D must Q (k n) (n :: P.1, P.2) s₂ G₂) :
    Safe D must Q (.op .newCodec k) P s G := by
  intro s₁ G₁ hle hI
  have hnew : ∀ (n : Nat) b, (exec .newCodec s₁).2.codecs[n]? = some b → s₁.codecs[n]? = some b ∨
      n = s₁.codecs.length ∧ b = none := by
    intro i o ho
    simp only [exec] at ho
    rw [List.getElem?_append] at ho
    split at ho
    · exact .inl ho
    · rename_i hlt
      right
      have h2 := (List.getElem?_eq_some_iff.mp ho).1
      simp at h2
      have : i = s₁.codecs.length := by omega
      subst this
      simp at ho
      exact ⟨rfl, ho.symm⟩
  have hG : ∀ n, n < s₁.codecs.length → upd G₁ s₁.codecs.length c n = G₁ n := by
    intro n hn; unfold upd; rw [if_neg (by omega)]
  have hle' : Le s₁ G₁ (exec .newCodec s₁).2 (upd G₁ s₁.codecs.length c) := by
    refine ⟨by simp [exec], hG, fun p hp => ?_, fun _ _ h => h, fun _ h => h⟩
    cases p with
    | glob g => exact hp
    | heap n =>
      obtain ⟨b, hb⟩ := hp
      exact ⟨b, by simp only [exec]; rw [List.getElem?_append_left (List.getElem?_eq_some_iff.mp hb).1]; exact hb⟩
  refine ⟨_, (s₁.codecs.length :: P.1, P.2), hle', ?_, ⟨?_, ?_⟩, ?_⟩
  · refine hI.mono hle' (fun n b hb => ?_) (fun i k fs hi => .inl hi) (fun _ _ h => .inl h) (fun _ _ h => .inl h) (fun _ _ h => .inl h)
    rcases hnew n _ hb with h1 | ⟨_, h1⟩
    · exact .inl ⟨h1, hG n (List.getElem?_eq_some_iff.mp h1).1⟩
    · cases h1
  · intro n hn
    rcases hnew n _ hn with h1 | ⟨h1, _⟩
    · by_cases hm : n ∈ P.1
      · exact .inl (List.mem_cons_of_mem _ hm)
      · exact .inr ⟨h1, hm⟩
    · exact .inl (h1 ▸ List.mem_cons_self)
  · intro n hn
    exact (Classical.em (n ∈ P.2)).imp id fun h' => ⟨hn, h'⟩
  · exact h _ _ _ (hle.trans hle') (by simp [State.has, exec]) (by simp [lab, upd, exec])

/-- `c.size = ...; c.encode = ...; c.decode = ...` -/
theorem safe_setCodec {α : Type} {Q : State → Ghost → Pend → α → Prop} {n : Nat} {b : CBody} {k : Unit → Prog α}
    {P : Pend} {s : State} {G : Ghost} (hn : s.has (.heap n)) (hb : BodyOK D must s G b (lab G (.heap n)))
    (h : ∀ s₂ G₂, Le s G s₂ G₂ → s₂.filled (.heap n) → Safe D must Q (k ()) P s₂ G₂) :
    Safe D must Q (.op (.setCodec n b) k) (n :: P.1, P.2) s G := by
  intro s₁ G₁ hle hI
  have hn₁ : n < s₁.codecs.length := hle.has hn
  have hget : ∀ m, (exec (.setCodec n b) s₁).2.codecs[m]? = if m = n then some (some b) else s₁.codecs[m]? := by
    intro m
    simp only [exec]
    rw [List.getElem?_set]
    by_cases hm : m = n
    · subst hm; simp [hn₁]
    · rw [if_neg (fun h => hm h.symm), if_neg hm]
  have hle' : Le s₁ G₁ (exec (.setCodec n b) s₁).2 G₁ := by
    refine ⟨by simp [exec], fun _ _ => rfl, fun p hp => ?_, fun _ _ h => h, fun _ h => h⟩
    cases p with
    | glob g => exact hp
    | heap m =>
      obtain ⟨b', hb'⟩ := hp
      by_cases hm : m = n
      · exact ⟨b, by rw [hget, if_pos hm]⟩
      · exact ⟨b', by rw [hget, if_neg hm]; exact hb'⟩
  have hb' := hb.mono (hle.trans hle')
  rw [← (hle.trans hle').lab hn] at hb'
  refine ⟨G₁, P, hle', ?_, ⟨?_, ?_⟩, ?_⟩
  · refine hI.mono hle' (fun m b' hm => ?_) (fun i k fs hi => .inl hi) (fun _ _ h => .inl h) (fun _ _ h => .inl h) (fun _ _ h => .inl h)
    rw [hget] at hm
    split at hm
    · rename_i h1; subst h1; cases hm; exact .inr hb'
    · exact .inl ⟨hm, rfl⟩
  · intro m hm
    unfold State.openC at hm
    rw [hget] at hm
    split at hm
    · cases hm
    · rename_i hmn
      by_cases hm' : m ∈ P.1
      · exact .inl hm'
      · exact .inr ⟨hm, by simp [hmn, hm']⟩
  · intro i hi
    exact (Classical.em (i ∈ P.2)).imp id fun h' => ⟨hi, h'⟩
  · exact h _ _ (hle.trans hle') ⟨b, by rw [hget, if_pos rfl]⟩

theorem le_infoCache (s : State) (G : Ghost) (m : InfoKey → Option Nat) : Le s G { s with infoCache := m } G :=
  ⟨Nat.le_refl _, fun _ _ => rfl, fun p hp => by cases p <;> exact hp, fun _ _ h => h, fun _ h => h⟩

theorem le_codecCache (s : State) (G : Ghost) (m : TypeId → Option CPtr) : Le s G { s with codecCache := m } G :=
  ⟨Nat.le_refl _, fun _ _ => rfl, fun p hp => by cases p <;> exact hp, fun _ _ h => h, fun _ h => h⟩

theorem le_sliceMap (s : State) (G : Ghost) (m : CPtr → Option CPtr) : Le s G { s with sliceMap := m } G :=
  ⟨Nat.le_refl _, fun _ _ => rfl, fun p hp => by cases p <;> exact hp, fun _ _ h => h, fun _ h => h⟩

/-- `structInfoCache.Store` -/
theorem safe_infoStore {α : Type} {Q : State → Ghost → Pend → α → Prop} {i : Nat} {key : InfoKey} {k : Unit → Prog α}
    {P : Pend} {s : State} {G : Ghost} (hk : s.keyIs i key) (hc : s.closed i)
    (h : ∀ s₂ G₂, Le s G s₂ G₂ → Safe D must Q (k ()) P s₂ G₂) :
    Safe D must Q (.op (.infoStore key i) k) P s G := by
  intro s₁ G₁ hle hI
  have hle' := le_infoCache s₁ G₁ (upd s₁.infoCache key (some i))
  refine ⟨G₁, P, hle', ?_, Acct.refl s₁ P, h _ _ (hle.trans hle')⟩
  refine hI.mono hle' (fun n b hb => .inl ⟨hb, rfl⟩) (fun _ _ _ hi => .inl hi) (fun k' j h => ?_) (fun _ _ h => .inl h) (fun _ _ h => .inl h)
  rcases upd_some h with h1 | ⟨rfl, rfl⟩
  · exact .inl h1
  · exact .inr ⟨(hle.trans hle').key _ _ hk, (hle.trans hle').closed _ hc⟩

/-- `structInfoCache.LoadOrStore` -/
theorem safe_infoLoadOrStore {α : Type} {Q : State → Ghost → Pend → α → Prop} {i : Nat} {key : InfoKey} {k : Nat → Prog α}
    {P : Pend} {s : State} {G : Ghost} (hk : s.keyIs i key) (hc : s.closed i)
    (h : ∀ j s₂ G₂, Le s G s₂ G₂ → s₂.keyIs j key → s₂.closed j → Safe D must Q (k j) P s₂ G₂) :
    Safe D must Q (.op (.infoLoadOrStore key i) k) P s G := by
  intro s₁ G₁ hle hI
  cases hl : s₁.infoCache key with
  | some j =>
    have e : exec (.infoLoadOrStore key i) s₁ = (j, s₁) := by simp only [exec]; rw [hl]; rfl
    rw [e]
    exact ⟨G₁, P, Le.refl _ _, hI, Acct.refl _ _, h _ _ _ hle (hI.infoCache _ _ hl).1 (hI.infoCache _ _ hl).2⟩
  | none =>
    have e : exec (.infoLoadOrStore key i) s₁ = (i, { s₁ with infoCache := upd s₁.infoCache key (some i) }) := by
      simp only [exec]; rw [hl]; rfl
    rw [e]
    have hle' := le_infoCache s₁ G₁ (upd s₁.infoCache key (some i))
    have hk' := (hle.trans hle').key _ _ hk
    have hc' := (hle.trans hle').closed _ hc
    refine ⟨G₁, P, hle', ?_, Acct.refl s₁ P, h _ _ _ (hle.trans hle') hk' hc'⟩
    refine hI.mono hle' (fun n b hb => .inl ⟨hb, rfl⟩) (fun _ _ _ hi => .inl hi) (fun k' j h => ?_) (fun _ _ h => .inl h) (fun _ _ h => .inl h)
    rcases upd_some h with h1 | ⟨rfl, rfl⟩
    · exact .inl h1
    · exact .inr ⟨hk', hc'⟩

/-- `codecCache.LoadOrStore` -/
theorem safe_codecLoadOrStore {α : Type} {Q : State → Ghost → Pend → α → Prop} {t : TypeId} {c : CPtr} {k : CPtr → Prog α}
    {P : Pend} {s : State} {G : Ghost} (hf : s.filled c) (hc : lab G c = .msg t)
    (h : ∀ p s₂ G₂, Le s G s₂ G₂ → s₂.filled p → lab G₂ p = .msg t → Safe D must Q (k p) P s₂ G₂) :
    Safe D must Q (.op (.codecLoadOrStore t c) k) P s G := by
  intro s₁ G₁ hle hI
  cases hl : s₁.codecCache t with
  | some j =>
    have e : exec (.codecLoadOrStore t c) s₁ = (j, s₁) := by simp only [exec]; rw [hl]; rfl
    rw [e]
    exact ⟨G₁, P, Le.refl _ _, hI, Acct.refl _ _, h _ _ _ hle (hI.codecCache _ _ hl).1 (hI.codecCache _ _ hl).2⟩
  | none =>
    have e : exec (.codecLoadOrStore t c) s₁ = (c, { s₁ with codecCache := upd s₁.codecCache t (some c) }) := by
      simp only [exec]; rw [hl]; rfl
    rw [e]
    have hle' := le_codecCache s₁ G₁ (upd s₁.codecCache t (some c))
    have hf' := (hle.trans hle').filled _ hf
    have hc' := ((hle.trans hle').lab (has_of_filled hf)).trans hc
    refine ⟨G₁, P, hle', ?_, Acct.refl s₁ P, h _ _ _ (hle.trans hle') hf' hc'⟩
    refine hI.mono hle' (fun n b hb => .inl ⟨hb, rfl⟩) (fun _ _ _ hi => .inl hi) (fun _ _ h => .inl h) (fun k' j h => ?_) (fun _ _ h => .inl h)
    rcases upd_some h with h1 | ⟨rfl, rfl⟩
    · exact .inl h1
    · exact .inr ⟨hf', hc'⟩

/-- `sliceMap.LoadOrStore` -/
theorem safe_sliceLoadOrStore {α : Type} {Q : State → Ghost → Pend → α → Prop} {c p : CPtr} {k : CPtr → Prog α}
    {P : Pend} {s : State} {G : Ghost} (hc : s.has c) (hf : s.filled p) (hp : lab G p = .slice (zeroC (lab G c)) (lab G c))
    (h : ∀ q s₂ G₂, Le s G s₂ G₂ → s₂.filled q → lab G₂ q = .slice (zeroC (lab G₂ c)) (lab G₂ c) → Safe D must Q (k q) P s₂ G₂) :
    Safe D must Q (.op (.sliceLoadOrStore c p) k) P s G := by
  intro s₁ G₁ hle hI
  cases hl : s₁.sliceMap c with
  | some j =>
    have e : exec (.sliceLoadOrStore c p) s₁ = (j, s₁) := by simp only [exec]; rw [hl]; rfl
    rw [e]
    exact ⟨G₁, P, Le.refl _ _, hI, Acct.refl _ _, h _ _ _ hle (hI.sliceMap _ _ hl).2.1 (hI.sliceMap _ _ hl).2.2⟩
  | none =>
    have e : exec (.sliceLoadOrStore c p) s₁ = (p, { s₁ with sliceMap := upd s₁.sliceMap c (some p) }) := by
      simp only [exec]; rw [hl]; rfl
    rw [e]
    have hle' := le_sliceMap s₁ G₁ (upd s₁.sliceMap c (some p))
    have hf' := (hle.trans hle').filled _ hf
    have hc' := (hle.trans hle').has hc
    have hp' : lab G₁ p = .slice (zeroC (lab G₁ c)) (lab G₁ c) := by
      rw [(hle.trans hle').lab (has_of_filled hf), (hle.trans hle').lab hc]; exact hp
    refine ⟨G₁, P, hle', ?_, Acct.refl s₁ P, h _ _ _ (hle.trans hle') hf' hp'⟩
    refine hI.mono hle' (fun n b hb => .inl ⟨hb, rfl⟩) (fun _ _ _ hi => .inl hi) (fun _ _ h => .inl h) (fun _ _ h => .inl h) (fun k' j h => ?_)
    rcases upd_some h with h1 | ⟨rfl, rfl⟩
    · exact .inl h1
    · exact .inr ⟨hc', hf', hp'⟩

end Pb.Cache
