import Verif.Proofs.AbstractRead
/-
What Marshal writes is read as the same abstract message by other readers.
-/
namespace Pb
open Spec

/-- The payloads of a value that is written at most once. -/
def OnceOrDefault (P : Protos) (k : Kind) (ds : List Bytes) (p : PVal) : Prop :=
  (ds = [] ∧ p = newVal P k) ∨ ∃ d, ds = [d] ∧ Payload (kindWire k) d ∧ ParseOnto P k (newVal P k) d p

/-- Several records of one field. -/
def ParseAll (P : Protos) (l : Label) (k : Kind) : PField → List Bytes → PField → Prop
  | old, [], new => new = old
  | old, d :: ds, new => ∃ mid, ParseField P l k old d mid ∧ ParseAll P l k mid ds new

theorem ParseAll.append {P : Protos} {l : Label} {k : Kind} {ds ds' : List Bytes} {a b c : PField} (h : ParseAll P l k a ds b)
    (h' : ParseAll P l k b ds' c) : ParseAll P l k a (ds ++ ds') c := by
  induction ds generalizing a with
  | nil => simp only [ParseAll] at h; subst h; exact h'
  | cons d ds ih => obtain ⟨mid, h1, h2⟩ := h; exact ⟨mid, h1, ih h2⟩

theorem records_for {n e : Nat} (hn : n < 2 ^ 29) (he : e < 8) : ∀ {ds : List Bytes}, (∀ d ∈ ds, Payload e d) →
    Records (recordsFor n e ds) (ds.map fun d => (n, e, d))
  | [], _ => .nil
  | d :: ds, h => by
    have : recordsFor n e (d :: ds) = (leb128 (8 * n + e) ++ d) ++ recordsFor n e ds := by simp [recordsFor]
    rw [this]
    exact .cons _ _ _ _ _ _ ⟨_, ⟨he, varint64_leb128 (by omega)⟩, h d (by simp), rfl⟩ (records_for hn he fun d hd => h d (by simp [hd]))

theorem length_recordsFor {n e : Nat} {ds : List Bytes} {d : Bytes} (h : d ∈ ds) : d.length ≤ (recordsFor n e ds).length := by
  induction ds with
  | nil => cases h
  | cons a ds ih =>
    have : recordsFor n e (a :: ds) = (leb128 (8 * n + e) ++ a) ++ recordsFor n e ds := by simp [recordsFor]
    rw [this]
    rcases List.mem_cons.mp h with rfl | h
    · simp; omega
    · have := ih h; simp; omega

theorem delimited_length (s : Bytes) : s.length ≤ (delimited s).length := by simp [delimited]

theorem payload_delimited {s : Bytes} (h : s.length < 2 ^ 64) : Payload 2 (delimited s) :=
  .varlen _ _ (varint64_leb128 h)

theorem scalar_once {P : Protos} {k : Kind} {s : Scalar} (hk : KindIs k s) {v : Val} {p : PVal} (hp : ScalarIs k v p)
    (hl : (payload s v).length < 2 ^ 64) (old : PVal) : Payload (kindWire k) (payload s v) ∧ ParseOnto P k old (payload s v) p := by
  have hf : Fits (fun _ => []) s.shape v := by cases hk <;> cases hp <;> constructor
  have hr := readsAs_spec_payload hf hl
  refine ⟨by rw [means_wire (kindIs_means hk)]; exact readsAs_payload hr, .scalar _ _ _ _ (reads_denotes hk hr hp) fun e => ?_⟩
  have := bool_kindIs hk e
  subst this
  exact payload_bool hf

theorem reprSlot_scalar {P : Protos} {k : Kind} {s : Scalar} (hk : KindIs k s) {v : Val} {p : PVal} (h : ReprSlot P k v p) : ScalarIs k v p := by
  cases h with
  | val _ _ _ h =>
    cases h with
    | scalar _ _ _ h => exact h
    | bytes => cases hk
    | message => cases hk
  | bytesNil => cases hk
  | messageNil => cases hk

theorem fold_putEntry {f : PKey → Option PVal} : ∀ (ps : List (PKey × PVal)) (g : PKey → Option PVal), (∀ e ∈ ps, f e.1 = some e.2) →
    ∀ z, (ps.foldl (fun g e => putEntry g e.1 e.2) g) z = if (∃ e ∈ ps, e.1 = z) then f z else g z
  | [], g, _, z => by simp
  | e :: ps, g, h, z => by
    rw [List.foldl_cons, fold_putEntry ps _ (fun e he => h e (by simp [he])) z]
    by_cases h1 : ∃ e ∈ ps, e.1 = z
    · have h2 : ∃ e' ∈ e :: ps, e'.1 = z := by obtain ⟨e', a, b⟩ := h1; exact ⟨e', by simp [a], b⟩
      rw [if_pos h1, if_pos h2]
    · rw [if_neg h1]
      by_cases h3 : z = e.1
      · subst h3
        have h2 : ∃ e' ∈ e :: ps, e'.1 = e.1 := ⟨e, by simp, rfl⟩
        rw [if_pos h2, h e (by simp)]
        simp [putEntry]
      · have h2 : ¬ ∃ e' ∈ e :: ps, e'.1 = z := by
          rintro ⟨e', a, b⟩
          rcases List.mem_cons.mp a with rfl | a
          · exact h3 b.symm
          · exact h1 ⟨e', a, b⟩
        rw [if_neg h2]
        simp [putEntry, h3]

theorem reprVal_written {P : Protos} {k : Kind} {v : Val} {p : PVal} {ds : List Bytes} (h : ProtoValue P true k v ds)
    (hr : ReprVal P k v p) : ds ≠ [] := by
  cases h with
  | bytesNil => cases hr with | scalar _ _ _ h => cases h
  | messageNil => cases hr with | scalar _ _ _ h => cases h
  | _ => simp

theorem protoValue_message {P : Protos} {a : Bool} {t : TypeId} {v : Val} {ds : List Bytes} (h : ProtoValue P a (.message t) v ds) :
    (v = .nilp ∧ ds = []) ∨ (v ≠ .nilp ∧ ds ≠ []) := by
  cases h with
  | scalar _ _ s _ h => cases h
  | zero _ s h => cases h
  | message => exact .inr ⟨by simp, by simp⟩
  | messageNil => exact .inl ⟨rfl, rfl⟩

theorem protoValue_bytes {P : Protos} {a : Bool} {v : Val} {ds : List Bytes} (h : ProtoValue P a .bytes v ds) :
    (v = .bytes none ∧ ds = []) ∨ (v ≠ .bytes none ∧ ds ≠ []) := by
  cases h with
  | scalar _ _ s _ h => cases h
  | zero _ s h => cases h
  | bytes => exact .inr ⟨by simp, by simp⟩
  | bytesNil => exact .inl ⟨rfl, rfl⟩

theorem protoValue_opt {P : Protos} {a b : Bool} {k : Kind} {v w : Val} {ds : List Bytes} (h : ProtoValue P a k w ds) (hw : w = .opt b v) :
    ∃ s, KindIs k s := by
  cases h with
  | scalar _ _ s _ h => exact ⟨s, h⟩
  | zero _ s h => exact ⟨s, h⟩
  | _ => cases hw

/-- The message `m` up to the fields `fs`, otherwise new. -/
def upTo (P : Protos) (t : TypeId) (m : PMsg) (fs : List ProtoField) : PMsg := fun n =>
  if n ∈ fs.map ProtoField.number then m n else newMsg P t n

theorem upTo_nil (P : Protos) (t : TypeId) (m : PMsg) : upTo P t m [] = newMsg P t := by funext n; simp [upTo]

theorem upTo_all {P : Protos} {t : TypeId} {m : PMsg} (h : ∀ n, (∀ f ∈ P t, f.number ≠ n) → m n = .unset) :
    upTo P t m ([] ++ P t) = m := by
  funext n
  simp only [upTo, List.nil_append]
  split
  · rfl
  · rename_i hn
    have hn : ∀ f ∈ P t, f.number ≠ n := fun f hf e => hn (List.mem_map.mpr ⟨f, hf, e⟩)
    rw [h n hn, newMsg_none hn]

theorem parseMsg_all {P : Protos} {t : TypeId} {f : ProtoField} (hf : f ∈ P t) : ∀ {ds : List Bytes} {x : PField} {m m' : PMsg}
    {rs : List (Nat × Nat × Bytes)}, ParseAll P f.label f.kind (m f.number) ds x → ParseMsg P t (m.put f.number x) rs m' →
    ParseMsg P t m (ds.map (fun d => (f.number, fieldWire f, d)) ++ rs) m'
  | [], x, m, m', rs, h, h' => by
    simp only [ParseAll] at h
    have : m.put f.number x = m := by
      funext k
      by_cases e : k = f.number
      · subst e; simp [PMsg.put, h]
      · simp [PMsg.put, e]
    rwa [this] at h'
  | d :: ds, x, m, m', rs, h, h' => by
    obtain ⟨mid, h1, h2⟩ := h
    refine .known _ _ f d _ mid _ hf h1 ?_
    refine parseMsg_all hf (x := x) ?_ ?_
    · simpa [PMsg.put] using h2
    · have : (m.put f.number mid).put f.number x = m.put f.number x := by
        funext k
        by_cases e : k = f.number <;> simp [PMsg.put, e]
      rwa [this]

theorem parseEntry_of {P : Protos} {key k : Kind} {kds vds : List Bytes} {x v : PVal} (h1 : OnceOrDefault P key kds x)
    (h2 : OnceOrDefault P k vds v) : ∃ rs, Records (recordsFor 1 (kindWire key) kds ++ recordsFor 2 (kindWire k) vds) rs ∧
      ParseEntry P key k (newVal P key) (newVal P k) rs x v := by
  have hv : ∀ a, ∃ rs, Records (recordsFor 2 (kindWire k) vds) rs ∧ ParseEntry P key k a (newVal P k) rs a v := by
    intro a
    rcases h2 with ⟨rfl, rfl⟩ | ⟨d, rfl, hp, ho⟩
    · exact ⟨[], .nil, .nil _ _ _ _⟩
    · exact ⟨_, records_for (by decide) (kindWire_lt k) (by simpa using hp), .value _ _ _ _ _ _ _ _ _ ho (.nil _ _ _ _)⟩
  obtain ⟨rs, r1, r2⟩ := hv x
  rcases h1 with ⟨rfl, rfl⟩ | ⟨d, rfl, hp, ho⟩
  · exact ⟨rs, r1, r2⟩
  · exact ⟨_, records_append (records_for (by decide) (kindWire_lt key) (by simpa using hp)) r1, .key _ _ _ _ _ _ _ _ _ ho r2⟩

theorem fullVal_key (x : PKey) : FullVal x.val := by cases x <;> constructor

mutual
theorem value_parse {P : Protos} (hN : ∀ t, NumbersOK (P t)) (hno : NoOneofs P) {always : Bool} {k : Kind} {v : Val} {ds : List Bytes} :
    ProtoValue P always k v ds → ∀ p, ReprSlot P k v p → FullVal p → (∀ d ∈ ds, d.length < 2 ^ 64) → OnceOrDefault P k ds p
  | .scalar _ _ s _ hk _ => fun p hr _ hl => by
    obtain ⟨h1, h2⟩ := scalar_once (P := P) hk (reprSlot_scalar hk hr) (hl _ (by simp)) (newVal P k)
    exact .inr ⟨_, rfl, h1, h2⟩
  | .zero _ s hk => fun p hr _ _ => .inl ⟨rfl, scalarIs_unique (reprSlot_scalar hk hr) (scalar_zero hk P)⟩
  | .bytes _ s => fun p hr _ hl => by
    have hs : s.length < 2 ^ 64 := Nat.lt_of_le_of_lt (delimited_length s) (hl _ (by simp))
    cases hr with
    | val _ _ _ h =>
      cases h with
      | scalar _ _ _ h => cases h
      | bytes => exact .inr ⟨_, rfl, payload_delimited hs, .scalar _ _ _ _ (.bytes _ _ (bytesAs_delimited hs)) (by simp)⟩
  | .bytesNil _ => fun p hr _ _ => by
    cases hr with
    | val _ _ _ h => cases h with | scalar _ _ _ h => cases h
    | bytesNil => exact .inl ⟨rfl, rfl⟩
  | .message _ t vs body hm => fun p hr hfull hl => by
    have ih := msg_parse hN hno hm
    have hs : body.length < 2 ^ 64 := Nat.lt_of_le_of_lt (delimited_length body) (hl _ (by simp))
    cases hr with
    | val _ _ _ h =>
      cases h with
      | scalar _ _ _ h => cases h
      | message _ _ m h =>
        cases h with
        | mk _ _ _ h1 h2 =>
          cases hfull with
          | msg _ hfull =>
            obtain ⟨rs, r1, r2⟩ := ih t [] m rfl h1 (fun f _ => hfull f.number) hs
            refine .inr ⟨_, rfl, payload_delimited hs, .message _ _ _ body rs _ (bytesAs_delimited hs) r1 ?_⟩
            rw [upTo_nil, upTo_all h2] at r2
            exact r2
  | .messageNil _ t => fun p hr _ _ => by
    cases hr with
    | val _ _ _ h => cases h with | scalar _ _ _ h => cases h
    | messageNil => exact .inl ⟨rfl, rfl⟩

theorem field_parse {P : Protos} (hN : ∀ t, NumbersOK (P t)) (hno : NoOneofs P) {l : Label} {k : Kind} {v : Val} {ds : List Bytes} :
    ProtoFieldValue P l k v ds → ∀ n x, ReprField P l k v x → FullField x → (∀ d ∈ ds, d.length < 2 ^ 64) →
    (∀ d ∈ ds, Payload (fieldWire ⟨n, k, l⟩) d) ∧ ParseAll P l k (fieldDefault ⟨n, k, l⟩) ds x
  | .implicit _ _ _ hp => fun n x hr hfull hl => by
    have ih := value_parse hN hno hp
    cases hr with
    | scalar _ _ p h =>
      cases hfull with
      | one _ hfull =>
        have hd : fieldDefault ⟨n, k, .implicit⟩ = .one (newVal P k) := by cases h <;> rfl
        rcases ih _ (.val _ _ _ (.scalar _ _ _ h)) hfull hl with ⟨rfl, rfl⟩ | ⟨d, rfl, h1, h2⟩
        · exact ⟨by simp, hd.symm⟩
        · exact ⟨fun e he => List.mem_singleton.mp he ▸ h1, _, hd ▸ .set _ _ _ _ _ (.inl rfl) h2, rfl⟩
    | bytes s =>
      cases hfull with
      | one _ hfull =>
        rcases ih _ (.val _ _ _ (.bytes s)) hfull hl with ⟨rfl, h⟩ | ⟨d, rfl, h1, h2⟩
        · exact ⟨by simp, by simp only [ParseAll]; rw [h]; rfl⟩
        · exact ⟨fun e he => List.mem_singleton.mp he ▸ h1, _, .set _ _ _ _ _ (.inl rfl) h2, rfl⟩
    | bytesNil =>
      cases hfull with
      | one _ hfull =>
        rcases ih _ .bytesNil hfull hl with ⟨rfl, h⟩ | ⟨d, rfl, h1, h2⟩
        · exact ⟨by simp, rfl⟩
        · exact ⟨fun e he => List.mem_singleton.mp he ▸ h1, _, .set _ _ _ _ _ (.inl rfl) h2, rfl⟩
    | message _ t vs m _ h =>
      cases hfull with
      | one _ hfull =>
        rcases ih _ (.val _ _ _ (.message _ _ _ h)) hfull hl with ⟨rfl, h⟩ | ⟨d, rfl, h1, h2⟩
        · rcases protoValue_message hp with ⟨h, _⟩ | ⟨_, h⟩
          · cases h
          · exact absurd rfl h
        · exact ⟨fun e he => List.mem_singleton.mp he ▸ h1, _, .first _ _ _ _ (.inl rfl) h2, rfl⟩
    | messageNil _ t _ =>
      rcases protoValue_message hp with ⟨_, rfl⟩ | ⟨h, _⟩
      · exact ⟨by simp, rfl⟩
      · exact absurd rfl h
  | .some _ s _ hk => fun n x hr hfull hl => by
    cases hr with
    | some _ _ p h =>
      obtain ⟨h1, h2⟩ := scalar_once (P := P) hk h (hl _ (by simp)) (newVal P k)
      exact ⟨fun e he => List.mem_singleton.mp he ▸ h1, _, .first _ _ _ _ (.inr rfl) h2, rfl⟩
  | .none _ s _ hk => fun n x hr hfull hl => by
    cases hr with
    | none => exact ⟨by simp, rfl⟩
  | .optional _ _ _ hs hp => fun n x hr hfull hl => by
    have ih := value_parse hN hno hp
    cases hr with
    | message _ t vs m _ h =>
      cases hfull with
      | one _ hfull =>
        rcases ih _ (.val _ _ _ (.message _ _ _ h)) hfull hl with ⟨rfl, h⟩ | ⟨d, rfl, h1, h2⟩
        · rcases protoValue_message hp with ⟨h, _⟩ | ⟨_, h⟩
          · cases h
          · exact absurd rfl h
        · exact ⟨fun e he => List.mem_singleton.mp he ▸ h1, _, .first _ _ _ _ (.inr rfl) h2, rfl⟩
    | messageNil _ t _ =>
      rcases protoValue_message hp with ⟨_, rfl⟩ | ⟨h, _⟩
      · exact ⟨by simp, rfl⟩
      · exact absurd rfl h
    | some _ _ p h => obtain ⟨s, h⟩ := protoValue_opt hp rfl; exact absurd h (hs s)
    | none _ => obtain ⟨s, h⟩ := protoValue_opt hp rfl; exact absurd h (hs s)
    | optBytes s =>
      rcases ih _ (.val _ _ _ (.bytes s)) (.text _) hl with ⟨rfl, h⟩ | ⟨d, rfl, h1, h2⟩
      · rcases protoValue_bytes hp with ⟨h, _⟩ | ⟨_, h⟩
        · cases h
        · exact absurd rfl h
      · exact ⟨fun e he => List.mem_singleton.mp he ▸ h1, _, .first _ _ _ _ (.inr rfl) h2, rfl⟩
    | optBytesNil =>
      rcases protoValue_bytes hp with ⟨_, rfl⟩ | ⟨h, _⟩
      · exact ⟨by simp, rfl⟩
      · exact absurd rfl h
  | .repeated _ isNil es spare _ hp => fun n x hr hfull hl => by
    have ih := list_parse hN hno hp
    cases hr with
    | repeated _ _ _ _ ps _ h =>
      cases hfull with
      | many _ hfull =>
        obtain ⟨h1, h2⟩ := ih ps h hfull hl
        exact ⟨h1, h2 []⟩
  | .map key _ isNil m _ hne hp => fun n x hr hfull hl => by
    have ih := entries_parse hN hno hp
    cases hr with
    | map _ _ _ _ ps f h h1 h2 =>
      cases hfull with
      | entries _ _ _ _ hfull =>
        obtain ⟨g1, g2⟩ := ih ps h (fun e he => hfull _ _ (h1 e he)) hl
        refine ⟨g1, ?_⟩
        have := g2 fun _ => none
        have e : (ps.foldl (fun g e => putEntry g e.1 e.2) fun _ => none) = f := by
          funext z
          rw [fold_putEntry ps _ h1 z]
          split
          · rfl
          · rename_i hz
            exact (h2 z fun e he hh => hz ⟨e, he, hh⟩).symm
        rw [e] at this
        exact this
  | .mapEmpty key _ isNil => fun n x hr hfull hl => by
    cases hr with
    | map _ _ _ _ ps f h h1 h2 =>
      cases h
      cases hfull with
      | entries _ a b h _ => simp [h2 a (by simp)] at h

theorem list_parse {P : Protos} (hN : ∀ t, NumbersOK (P t)) (hno : NoOneofs P) {k : Kind} {es : List Val} {ds : List Bytes} :
    ProtoList P k es ds → ∀ ps, ReprList P k es ps → (∀ p ∈ ps, FullVal p) → (∀ d ∈ ds, d.length < 2 ^ 64) →
    (∀ d ∈ ds, Payload (kindWire k) d) ∧ ∀ acc, ParseAll P .repeated k (.many acc) ds (.many (acc ++ ps))
  | .nil _ => fun ps hr _ _ => by cases hr; exact ⟨by simp, fun acc => by simp [ParseAll]⟩
  | .cons _ v vs ds1 ds2 hp hps => fun ps hr hfull hl => by
    have ih1 := value_parse hN hno hp
    have ih2 := list_parse hN hno hps
    cases hr with
    | cons _ _ p _ ps h1 h2 =>
      obtain ⟨g1, g2⟩ := ih2 ps h2 (fun p hp => hfull p (by simp [hp])) fun d hd => hl d (by simp [hd])
      rcases ih1 p (.val _ _ _ h1) (hfull p (by simp)) (fun d hd => hl d (by simp [hd])) with ⟨h, _⟩ | ⟨d, rfl, k1, k2⟩
      · exact absurd h (reprVal_written hp h1)
      · refine ⟨?_, fun acc => ?_⟩
        · intro e he
          rcases List.mem_append.mp he with he | he
          · rw [List.mem_singleton.mp he]; exact k1
          · exact g1 e he
        · have := g2 (acc ++ [p])
          rw [List.append_assoc] at this
          exact ⟨_, .repeated _ _ _ _ k2, this⟩

theorem entries_parse {P : Protos} (hN : ∀ t, NumbersOK (P t)) (hno : NoOneofs P) {key k : Kind} {m : List (Key × Val)} {ds : List Bytes} :
    ProtoEntries P key k m ds → ∀ ps, ReprEntries P key k m ps → (∀ e ∈ ps, FullVal e.2) → (∀ d ∈ ds, d.length < 2 ^ 64) →
    (∀ d ∈ ds, Payload 2 d) ∧ ∀ g, ParseAll P (.map key) k (.entries g) ds (.entries (ps.foldl (fun g e => putEntry g e.1 e.2) g))
  | .nil _ _ => fun ps hr _ _ => by cases hr; exact ⟨by simp, fun acc => rfl⟩
  | .cons _ _ x v m kds vds ds hk hv hm => fun ps hr hfull hl => by
    have ih1 := value_parse hN hno hk
    have ih2 := value_parse hN hno hv
    have ih3 := entries_parse hN hno hm
    cases hr with
    | cons _ _ _ _ px pv _ ps h1 h2 h3 =>
      obtain ⟨g1, g2⟩ := ih3 ps h3 (fun p hp => hfull p (by simp [hp])) fun d hd => hl d (by simp [hd])
      have hlen := hl _ (List.mem_cons_self ..)
      have hbody := Nat.lt_of_le_of_lt (delimited_length _) hlen
      have o1 := ih1 px.val (.val _ _ _ (.scalar _ _ _ h1)) (fullVal_key px) fun d hd => by
        have := length_recordsFor (n := 1) (e := kindWire key) hd
        rw [List.length_append] at hbody; omega
      have o2 := ih2 pv h2 (hfull (px, pv) (by simp)) fun d hd => by
        have := length_recordsFor (n := 2) (e := kindWire k) hd
        rw [List.length_append] at hbody; omega
      obtain ⟨rs, r1, r2⟩ := parseEntry_of o1 o2
      refine ⟨?_, fun g => ?_⟩
      · intro e he
        rcases List.mem_cons.mp he with rfl | he
        · exact payload_delimited hbody
        · exact g1 e he
      · exact ⟨_, .map _ _ _ _ _ rs px pv (bytesAs_delimited hbody) r1 r2, g2 _⟩

theorem msg_parse {P : Protos} (hN : ∀ t, NumbersOK (P t)) (hno : NoOneofs P) {seen : List Nat} {fs : List ProtoField} {vs : List Val} {b : Bytes} :
    ProtoMsg P seen fs vs b → ∀ t pre m, P t = pre ++ fs →
    (∀ (i : Nat) f v, fs[i]? = some f → vs[i]? = some v → ReprField P f.label f.kind v (m f.number)) → (∀ f ∈ fs, FullField (m f.number)) →
    b.length < 2 ^ 64 → ∃ rs, Records b rs ∧ ParseMsg P t (upTo P t m pre) rs (upTo P t m (pre ++ fs))
  | .nil _ _ => fun t pre m _ _ _ _ => ⟨[], .nil, by rw [List.append_nil]; exact .nil _ _⟩
  | .field _ f fs v vs ds b _ hp hm => fun t pre m he hr hfull hl => by
    have ih1 := field_parse hN hno hp
    have ih2 := msg_parse hN hno hm
    rw [List.length_append] at hl
    have hf : f ∈ P t := by rw [he]; simp
    obtain ⟨p1, p2⟩ := ih1 f.number (m f.number) (hr 0 f v rfl rfl) (hfull f (by simp)) fun d hd => by
      have := length_recordsFor (n := f.number) (e := fieldWire f) hd; omega
    obtain ⟨rs, r1, r2⟩ := ih2 t (pre ++ [f]) m (by simp [he]) (fun i g w hg hw => hr (i + 1) g w hg hw)
      (fun g hg => hfull g (by simp [hg])) (by omega)
    have hw : fieldWire f < 8 := by
      simp only [fieldWire]; split
      · decide
      · exact kindWire_lt _
    refine ⟨_, records_append (records_for ((hN t).range f hf).2 hw p1) r1, ?_⟩
    have hnew : f.number ∉ pre.map ProtoField.number := by
      intro h
      obtain ⟨g, hg, e⟩ := List.mem_map.mp h
      have := (hN t).distinct
      rw [he, List.pairwise_append] at this
      exact this.2.2 g hg f (by simp) e
    refine parseMsg_all hf (x := m f.number) ?_ ?_
    · have : upTo P t m pre f.number = fieldDefault f := by
        simp only [upTo, hnew, if_false]; exact newMsg_of (hN t) hf
      rw [this]; exact p2
    · have : (upTo P t m pre).put f.number (m f.number) = upTo P t m (pre ++ [f]) := by
        funext n
        by_cases e : n = f.number
        · subst e; simp [PMsg.put, upTo]
        · simp [PMsg.put, upTo, e]
      rw [this]
      simpa using r2
  | .oneof _ f _ i _ _ _ hi _ _ => fun t pre m he _ _ _ => absurd ⟨i, hi⟩ (hno t f (by rw [he]; simp))
  | .oneofSeen _ f _ i _ _ hi _ _ => fun t pre m he _ _ _ => absurd ⟨i, hi⟩ (hno t f (by rw [he]; simp))
end

theorem parses_of_protoMsg {P : Protos} (hN : ∀ t, NumbersOK (P t)) (hno : NoOneofs P) {t : TypeId} {vs : List Val} {b : Bytes} {m : PMsg}
    (h : ProtoMsg P [] (P t) vs b) (hr : ReprMsg P t vs m) (hfull : FullVal (.msg m)) (hl : b.length < 2 ^ 64) : Parses P t b m := by
  cases hr with
  | mk _ _ _ h1 h2 =>
    cases hfull with
    | msg _ hfull =>
      obtain ⟨rs, r1, r2⟩ := msg_parse hN hno h t [] m rfl h1 (fun f _ => hfull f.number) hl
      rw [upTo_nil, upTo_all h2] at r2
      exact ⟨rs, r1, r2⟩

end Pb
