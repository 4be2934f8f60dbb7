import Verif.Spec.Decode
import Verif.Gen.ExprBuff
import Verif.Stdlib.Skip

/-! `decode` is the inverse of `consensus`. -/

namespace Spec
open Wasm Gen

theorem takeN_val {n : Nat} {bs x r : List Byte} : takeN n bs = .val x r ↔ bs = x ++ r ∧ x.length = n := by
  unfold takeN
  constructor
  · intro h
    split at h
    · injection h with h1 h2
      subst h1; subst h2
      simp; omega
    · cases h
  · rintro ⟨rfl, rfl⟩
    simp

theorem takeN_append {n : Nat} {x r : List Byte} (h : x.length = n) : takeN n (x ++ r) = .val x r :=
  takeN_val.2 ⟨rfl, h⟩

theorem takeN_ne {n : Nat} {bs : List Byte} : takeN n bs ≠ .deviates := by
  unfold takeN; split <;> simp

theorem bind_val {α β : Type} {d : Dec α} {f : α → List Byte → Dec β} {b : β} {r : List Byte} :
    d.bind f = .val b r ↔ ∃ a r', d = .val a r' ∧ f a r' = .val b r := by
  cases d <;> simp [Dec.bind]

theorem bind_dev {α β : Type} {d : Dec α} {f : α → List Byte → Dec β} :
    d.bind f = .deviates ↔ d = .deviates ∨ ∃ a r', d = .val a r' ∧ f a r' = .deviates := by
  cases d <;> simp [Dec.bind]

theorem bigEndian_beNat : ∀ (k : Nat) (x : List Byte), x.length = k → bigEndian k (beNat x) = x
  | 0, x, h => by
    cases x with
    | nil => rfl
    | cons _ _ => simp at h
  | k + 1, x, h => by
    cases x with
    | nil => simp at h
    | cons b x =>
      have hx : x.length = k := by simpa using h
      have hlt := beNat_lt x
      rw [hx] at hlt
      have hb := b.isLt
      rw [bigEndian, beNat_cons, hx]
      congr 1
      · apply BitVec.eq_of_toNat_eq
        rw [BitVec.toNat_ofNat, Nat.add_comm, Nat.add_mul_div_left _ _ (by positivity),
          Nat.div_eq_of_lt hlt]
        omega
      · rw [← bigEndian_mod, Nat.mul_add_mod, Nat.mod_eq_of_lt hlt]
        exact bigEndian_beNat k x hx

theorem takeLen_val {bs r : List Byte} {k : Nat} :
    takeLen bs = .val k r ↔ bs = lenBytes k ++ r ∧ k < 2 ^ 32 := by
  unfold takeLen
  rw [bind_val]
  constructor
  · rintro ⟨x, r', h, h'⟩
    injection h' with h1 h2
    subst h1; subst h2
    obtain ⟨rfl, hl⟩ := takeN_val.1 h
    refine ⟨by rw [lenBytes, bigEndian_beNat 4 x hl], ?_⟩
    have := beNat_lt x
    rw [hl] at this
    omega
  · rintro ⟨rfl, h⟩
    refine ⟨lenBytes k, r, takeN_append (length_lenBytes k), ?_⟩
    rw [lenBytes, beNat_bigEndian 4 k (by omega)]

theorem takeLen_ne {bs : List Byte} : takeLen bs ≠ .deviates := by
  unfold takeLen
  intro h
  rw [bind_dev] at h
  rcases h with h | ⟨_, _, _, h⟩
  · exact takeN_ne h
  · cases h

theorem tagged_val {α : Type} {t : Byte} {f : List Byte → Dec α} {bs r : List Byte} {a : α} :
    tagged t f bs = .val a r ↔ ∃ bs', bs = t :: bs' ∧ f bs' = .val a r := by
  cases bs with
  | nil => simp [tagged]
  | cons b bs =>
    simp only [tagged]
    split
    · next h => subst h; simp
    · next h => simp [h]

theorem tagged_ne {α : Type} {t : Byte} {f : List Byte → Dec α} {bs : List Byte} (h : ∀ r, f r ≠ .deviates) :
    tagged t f bs ≠ .deviates := by
  cases bs with
  | nil => simp [tagged]
  | cons b bs =>
    simp only [tagged]
    split
    · exact h _
    · simp

theorem utf8Cand_append {c : Nat} {r : List Nat} (h : isScalar c) : utf8Cand (utf8 c ++ r) = c := by
  have := h.1
  unfold utf8
  repeat' split
  all_goals
    simp only [utf8Cand, List.cons_append, List.nil_append, List.getD_cons_zero, List.getD_cons_succ]
    repeat' split
    all_goals omega

theorem utf8Decode_some : ∀ {n : Nat} {bs cs : List Nat},
    utf8Decode n bs = some cs ↔ (∀ c ∈ cs, isScalar c) ∧ utf8Text cs = bs ∧ cs.length ≤ n
  | n, [], cs => by
    have : utf8Decode n [] = some [] := by cases n <;> rfl
    rw [this]
    constructor
    · intro h
      injection h with h
      subst h
      simp [utf8Text]
    · rintro ⟨_, h, _⟩
      cases cs with
      | nil => rfl
      | cons c cs =>
        have := utf8_ne_nil c
        simp [utf8Text, this] at h
  | 0, b :: bs, cs => by
    simp only [utf8Decode]
    constructor
    · intro h; cases h
    · rintro ⟨_, h, h'⟩
      have : cs = [] := by simpa using h'
      subst this
      simp [utf8Text] at h
  | n + 1, b :: bs, cs => by
    rw [show utf8Decode (n + 1) (b :: bs) = _ from utf8Decode.eq_3 (b :: bs) n (by simp)]
    constructor
    · intro h
      split at h
      · next hc =>
        obtain ⟨h1, h2⟩ := hc
        rw [List.isPrefixOf_iff_prefix] at h2
        obtain ⟨r, hr⟩ := h2
        rw [Option.map_eq_some_iff] at h
        obtain ⟨cs', h3, rfl⟩ := h
        obtain ⟨q1, q2, q3⟩ := utf8Decode_some.1 h3
        refine ⟨?_, ?_, by simp; omega⟩
        · intro c hc
          rcases List.mem_cons.1 hc with rfl | hc
          · exact h1
          · exact q1 c hc
        · rw [utf8Text, List.flatMap_cons, ← utf8Text, q2]
          conv_rhs => rw [← hr]
          congr 1
          have e := List.drop_left (l₁ := utf8 (utf8Cand (b :: bs))) (l₂ := r)
          rwa [hr] at e
      · cases h
    · rintro ⟨h1, h2, h3⟩
      cases cs with
      | nil => simp [utf8Text] at h2
      | cons c cs =>
        rw [utf8Text, List.flatMap_cons, ← utf8Text] at h2
        have hc := h1 c (by simp)
        rw [← h2, utf8Cand_append hc, if_pos ⟨hc, by rw [List.isPrefixOf_iff_prefix]; exact ⟨_, rfl⟩⟩, List.drop_left,
          utf8Decode_some.2 ⟨fun c hc => h1 c (by simp [hc]), rfl, by simpa using h3⟩]
        rfl

theorem signed128_mod (z : Int) (h : IsInt z) : signed128 (z % 2 ^ 128).toNat = z := by
  obtain ⟨h1, h2⟩ := h
  unfold signed128
  split <;> omega

theorem signed128_int {n : Nat} (h : n < 2 ^ 128) : IsInt (signed128 n) ∧ (signed128 n % 2 ^ 128).toNat = n := by
  unfold signed128 IsInt
  split <;> omega

theorem contractNameOkB_iff {n : Name} : contractNameOkB n = true ↔ contractNameOk n := by
  simp [contractNameOkB, contractNameOk]

theorem decodePrincipal_val {bs r : List Byte} {p : Principal} :
    decodePrincipal bs = .val p r ↔ bs = consensus (.principal p) ++ r ∧ p.Ok := by
  constructor
  · intro h
    cases bs with
    | nil => cases h
    | cons b bs =>
      simp only [decodePrincipal] at h
      split at h
      · next hb =>
        subst hb
        obtain ⟨x, r', h1, h2⟩ := bind_val.1 h
        obtain ⟨rfl, hx⟩ := takeN_val.1 h1
        cases x with
        | nil => cases h2
        | cons v hs =>
          simp only at h2
          split at h2
          · next hv =>
            injection h2 with h3 h4
            subst h3; subst h4
            exact ⟨by simp [consensus, issuerBytes], hv, by simpa using hx⟩
          · cases h2
      · split at h
        · next hb =>
          subst hb
          obtain ⟨x, r', h1, h2⟩ := bind_val.1 h
          obtain ⟨rfl, hx⟩ := takeN_val.1 h1
          cases r' with
          | nil => cases h2
          | cons l r' =>
            simp only at h2
            obtain ⟨nm, r'', h3, h4⟩ := bind_val.1 h2
            obtain ⟨rfl, hn⟩ := takeN_val.1 h3
            cases x with
            | nil => cases h4
            | cons v hs =>
              simp only at h4
              split at h4
              · next hv =>
                injection h4 with h5 h6
                subst h5; subst h6
                refine ⟨?_, ⟨hv.1, by simpa using hx⟩, contractNameOkB_iff.1 hv.2⟩
                simp only [consensus, contractBytes, nameBytes, issuerBytes, hn, List.cons_append, List.append_assoc,
                  BitVec.ofNat_toNat, BitVec.setWidth_eq]
              · cases h4
        · cases h
  · rintro ⟨rfl, h⟩
    cases p with
    | standard s =>
      obtain ⟨h1, h2⟩ := h
      simp only [consensus, decodePrincipal, List.cons_append]
      rw [if_pos trivial, takeN_append (by simp [issuerBytes, h2])]
      simp only [Dec.bind, issuerBytes]
      rw [if_pos h1]
    | contract c =>
      obtain ⟨⟨h1, h2⟩, h3⟩ := h
      have hl := h3.2
      simp only [consensus, contractBytes, decodePrincipal, List.cons_append, List.append_assoc]
      rw [if_neg (by decide), if_pos trivial, takeN_append (by simp [issuerBytes, h2])]
      simp only [Dec.bind, nameBytes, List.cons_append]
      rw [takeN_append (by rw [BitVec.toNat_ofNat]; omega)]
      simp only [issuerBytes]
      rw [if_pos ⟨h1, contractNameOkB_iff.2 h3⟩]

/-- The types whose deserialization is specified. -/
def Decodable : Ty → Prop
  | .int | .uint | .bool | .principal | .buff _ | .ascii _ | .utf8 _ => True
  | .list _ e => Decodable e
  | .opt t => Decodable t
  | .resp o e => Decodable o ∧ Decodable e
  | .callable _ | .trait _ | .traitRef _ | .tuple _ | .noType => False

/-- The type has no principals. -/
def NoPrincipal : Ty → Prop
  | .principal | .callable _ | .trait _ | .traitRef _ => False
  | .list _ e => NoPrincipal e
  | .opt t => NoPrincipal t
  | .resp o e => NoPrincipal o ∧ NoPrincipal e
  | _ => True

theorem decodeN_val {f : List Byte → Dec Value} {P : Value → Prop}
    (hf : ∀ bs v r, f bs = .val v r → P v ∧ bs = consensus v ++ r) :
    ∀ {k : Nat} {bs : List Byte} {vs : List Value} {r : List Byte}, decodeN f k bs = .val vs r →
      vs.length = k ∧ (∀ v ∈ vs, P v) ∧ bs = consensusAll vs ++ r
  | 0, bs, vs, r, h => by
    injection h with h1 h2
    subst h1; subst h2
    simp [consensusAll]
  | k + 1, bs, vs, r, h => by
    rw [decodeN, bind_val] at h
    obtain ⟨v, r1, h1, h⟩ := h
    obtain ⟨vs', r2, h2, h⟩ := bind_val.1 h
    injection h with h3 h4
    subst h3; subst h4
    obtain ⟨q1, rfl⟩ := hf _ _ _ h1
    obtain ⟨q2, q3, rfl⟩ := decodeN_val hf h2
    refine ⟨by simp [q2], ?_, by simp [consensusAll]⟩
    intro u hu
    rcases List.mem_cons.1 hu with rfl | hu
    · exact q1
    · exact q3 u hu

theorem decodeN_all {f : List Byte → Dec Value} : ∀ {vs : List Value} {r : List Byte},
    (∀ v ∈ vs, ∀ r, f (consensus v ++ r) = .val v r) → decodeN f vs.length (consensusAll vs ++ r) = .val vs r
  | [], r, _ => by simp [decodeN, consensusAll]
  | v :: vs, r, h => by
    rw [List.length_cons, decodeN, consensusAll, List.append_assoc, h v (by simp)]
    simp only [Dec.bind]
    rw [decodeN_all fun u hu => h u (by simp [hu])]

theorem decodeN_ne {f : List Byte → Dec Value} (hf : ∀ bs, f bs ≠ .deviates) :
    ∀ {k : Nat} {bs : List Byte}, decodeN f k bs ≠ .deviates
  | 0, _ => by simp [decodeN]
  | k + 1, bs => by
    rw [decodeN]
    intro h
    rcases bind_dev.1 h with h | ⟨v, r, _, h⟩
    · exact hf _ h
    · rcases bind_dev.1 h with h | ⟨_, _, _, h⟩
      · exact decodeN_ne hf h
      · cases h

/-- What is read is a value of the type, and the bytes are its encoding. -/
theorem decode_sound : ∀ {T : Ty} {bs : List Byte} {v : Value} {r : List Byte}, decode T bs = .val v r →
    HasType T v ∧ bs = consensus v ++ r
  | .int, bs, v, r, h => by
    simp only [decode] at h
    obtain ⟨bs', rfl, h⟩ := tagged_val.1 h
    obtain ⟨x, r', h1, h2⟩ := bind_val.1 h
    obtain ⟨rfl, hx⟩ := takeN_val.1 h1
    injection h2 with h3 h4
    subst h3; subst h4
    have := beNat_lt x
    rw [hx] at this
    obtain ⟨q1, q2⟩ := signed128_int (n := beNat x) (by omega)
    refine ⟨q1, ?_⟩
    rw [consensus, q2, bigEndian_beNat 16 x hx]
    rfl
  | .uint, bs, v, r, h => by
    simp only [decode] at h
    obtain ⟨bs', rfl, h⟩ := tagged_val.1 h
    obtain ⟨x, r', h1, h2⟩ := bind_val.1 h
    obtain ⟨rfl, hx⟩ := takeN_val.1 h1
    injection h2 with h3 h4
    subst h3; subst h4
    have := beNat_lt x
    rw [hx] at this
    refine ⟨?_, ?_⟩
    · simp only [HasType, IsUInt]; omega
    · rw [consensus, bigEndian_beNat 16 x hx]
      rfl
  | .bool, bs, v, r, h => by
    simp only [decode] at h
    cases bs with
    | nil => cases h
    | cons b bs =>
      simp only at h
      split at h
      · next hb => injection h with h1 h2; subst h1; subst h2; subst hb; simp [HasType, consensus]
      · split at h
        · next hb => injection h with h1 h2; subst h1; subst h2; subst hb; simp [HasType, consensus]
        · cases h
  | .principal, bs, v, r, h => by
    simp only [decode] at h
    obtain ⟨p, r', h1, h2⟩ := bind_val.1 h
    injection h2 with h3 h4
    subst h3; subst h4
    obtain ⟨q1, q2⟩ := decodePrincipal_val.1 h1
    exact ⟨q2, q1⟩
  | .buff n, bs, v, r, h => by
    simp only [decode] at h
    obtain ⟨bs', rfl, h⟩ := tagged_val.1 h
    obtain ⟨k, r', h1, h2⟩ := bind_val.1 h
    obtain ⟨rfl, hk⟩ := takeLen_val.1 h1
    split at h2
    · next hn =>
      obtain ⟨x, r', h5, h6⟩ := bind_val.1 h2
      obtain ⟨rfl, hx⟩ := takeN_val.1 h5
      injection h6 with h3 h4
      subst h3; subst h4
      exact ⟨by simp only [HasType]; omega, by simp [consensus, hx]⟩
    · cases h2
  | .ascii n, bs, v, r, h => by
    simp only [decode] at h
    obtain ⟨bs', rfl, h⟩ := tagged_val.1 h
    obtain ⟨k, r', h1, h2⟩ := bind_val.1 h
    obtain ⟨rfl, hk⟩ := takeLen_val.1 h1
    split at h2
    · next hn =>
      obtain ⟨x, r', h5, h6⟩ := bind_val.1 h2
      obtain ⟨rfl, hx⟩ := takeN_val.1 h5
      split at h6
      · next ha =>
        injection h6 with h3 h4
        subst h3; subst h4
        rw [List.all_eq_true] at ha
        exact ⟨⟨by omega, ha⟩, by simp [consensus, hx]⟩
      · cases h6
    · cases h2
  | .utf8 n, bs, v, r, h => by
    simp only [decode] at h
    obtain ⟨bs', rfl, h⟩ := tagged_val.1 h
    obtain ⟨k, r', h1, h2⟩ := bind_val.1 h
    obtain ⟨rfl, hk⟩ := takeLen_val.1 h1
    obtain ⟨x, r', h5, h6⟩ := bind_val.1 h2
    obtain ⟨rfl, hx⟩ := takeN_val.1 h5
    split at h6
    · next cs hc =>
      injection h6 with h3 h4
      subst h3; subst h4
      obtain ⟨q1, q2, q3⟩ := utf8Decode_some.1 hc
      refine ⟨⟨q3, q1⟩, ?_⟩
      have e := ofNat8_toNat q2.symm
      have hl : (utf8Text cs).length = k := by rw [q2, List.length_map, hx]
      simp [consensus, e, hl]
    · cases h6
  | .list n e, bs, v, r, h => by
    simp only [decode] at h
    obtain ⟨bs', rfl, h⟩ := tagged_val.1 h
    obtain ⟨k, r', h1, h2⟩ := bind_val.1 h
    obtain ⟨rfl, hk⟩ := takeLen_val.1 h1
    split at h2
    · next hn =>
      obtain ⟨x, r', h5, h6⟩ := bind_val.1 h2
      injection h6 with h3 h4
      subst h3; subst h4
      obtain ⟨q1, q2, rfl⟩ := decodeN_val (P := HasType e) (fun _ _ _ h => decode_sound h) h5
      exact ⟨⟨by omega, q2⟩, by simp [consensus, q1]⟩
    · cases h2
  | .opt t, bs, v, r, h => by
    simp only [decode] at h
    cases bs with
    | nil => cases h
    | cons b bs =>
      simp only at h
      split at h
      · next hb => injection h with h1 h2; subst h1; subst h2; subst hb; simp [HasType, consensus]
      · split at h
        · next hb =>
          obtain ⟨x, r', h1, h2⟩ := bind_val.1 h
          injection h2 with h3 h4
          subst h3; subst h4; subst hb
          obtain ⟨q1, rfl⟩ := decode_sound h1
          exact ⟨q1, by simp [consensus]⟩
        · cases h
  | .resp o e, bs, v, r, h => by
    simp only [decode] at h
    cases bs with
    | nil => cases h
    | cons b bs =>
      simp only at h
      split at h
      · next hb =>
        obtain ⟨x, r', h1, h2⟩ := bind_val.1 h
        injection h2 with h3 h4
        subst h3; subst h4; subst hb
        obtain ⟨q1, rfl⟩ := decode_sound h1
        exact ⟨q1, by simp [consensus]⟩
      · split at h
        · next hb =>
          obtain ⟨x, r', h1, h2⟩ := bind_val.1 h
          injection h2 with h3 h4
          subst h3; subst h4; subst hb
          obtain ⟨q1, rfl⟩ := decode_sound h1
          exact ⟨q1, by simp [consensus]⟩
        · cases h
  | .callable _, _, _, _, h | .trait _, _, _, _, h | .traitRef _, _, _, _, h | .tuple _, _, _, _, h
  | .noType, _, _, _, h => by simp [decode] at h

theorem consensusAll_mem {vs : List Value} {v : Value} (h : v ∈ vs) :
    (consensus v).length ≤ (consensusAll vs).length := by
  induction vs with
  | nil => simp at h
  | cons u vs ih =>
    rw [consensusAll, List.length_append]
    rcases List.mem_cons.1 h with rfl | h
    · omega
    · have := ih h; omega

theorem consensusAll_len (vs : List Value) : vs.length ≤ (consensusAll vs).length := by
  induction vs with
  | nil => simp
  | cons u vs ih =>
    have := consensus_pos u
    rw [consensusAll, List.length_append, List.length_cons]
    omega

/-- The encoding of every value of a decodable type is read back. -/
theorem decode_complete : ∀ {T : Ty} {v : Value} {r : List Byte}, Decodable T → HasType T v →
    (consensus v).length < 2 ^ 32 → decode T (consensus v ++ r) = .val v r
  | .int, v, r, _, h, hl => by
    clear hl
    cases v <;> simp only [HasType] at h
    rename_i z
    simp only [consensus, decode, List.cons_append, tagged, if_true]
    rw [takeN_append (length_bigEndian 16 _)]
    simp only [Dec.bind]
    rw [beNat_bigEndian _ _ (by omega), signed128_mod z h]
  | .uint, v, r, _, h, hl => by
    clear hl
    cases v <;> simp only [HasType] at h
    rename_i z
    have hz : z < 2 ^ 128 := h
    simp only [consensus, decode, List.cons_append, tagged, if_true]
    rw [takeN_append (length_bigEndian 16 _)]
    simp only [Dec.bind]
    rw [beNat_bigEndian _ _ (by omega)]
  | .bool, v, r, _, h, hl => by
    clear hl
    cases v <;> simp only [HasType] at h
    rename_i b
    cases b <;> simp [consensus, decode]
  | .principal, v, r, _, h, _ => by
    cases v <;> simp only [HasType] at h
    simp only [decode]
    rw [decodePrincipal_val.2 ⟨rfl, h⟩]
    rfl
  | .buff n, v, r, _, h, hl => by
    cases v <;> simp only [HasType] at h
    rename_i x
    simp only [consensus, List.length_cons, List.length_append] at hl
    simp only [consensus, decode, List.cons_append, tagged, if_true, List.append_assoc]
    rw [takeLen_val.2 ⟨rfl, by omega⟩]
    simp only [Dec.bind]
    rw [if_pos h, takeN_append rfl]
  | .ascii n, v, r, _, h, hl => by
    cases v <;> simp only [HasType] at h
    rename_i x
    simp only [consensus, List.length_cons, List.length_append] at hl
    simp only [consensus, decode, List.cons_append, tagged, if_true, List.append_assoc]
    rw [takeLen_val.2 ⟨rfl, by omega⟩]
    simp only [Dec.bind]
    rw [if_pos h.1, takeN_append rfl]
    simp only
    rw [if_pos (by rw [List.all_eq_true]; exact h.2)]
  | .utf8 n, v, r, _, h, hl => by
    cases v <;> simp only [HasType] at h
    rename_i cs
    simp only [consensus, List.length_cons, List.length_append, List.length_map] at hl
    simp only [consensus, decode, List.cons_append, tagged, if_true, List.append_assoc]
    rw [takeLen_val.2 ⟨rfl, by omega⟩]
    simp only [Dec.bind]
    rw [takeN_append (by rw [List.length_map])]
    simp only
    have e : ((utf8Text cs).map (BitVec.ofNat 8)).map BitVec.toNat = utf8Text cs := by
      rw [List.map_map]
      conv_rhs => rw [← List.map_id (utf8Text cs)]
      apply List.map_congr_left
      intro c hc
      have : c < 256 := by
        simp only [utf8Text, List.mem_flatMap] at hc
        obtain ⟨d, hd, hc⟩ := hc
        have := (h.2 d hd).1
        unfold utf8 at hc
        repeat' split at hc
        all_goals
          simp only [List.mem_cons, List.not_mem_nil, or_false] at hc
          omega
      simp only [Function.comp, BitVec.toNat_ofNat, id]
      omega
    rw [e, utf8Decode_some.2 ⟨h.2, rfl, h.1⟩]
  | .list n e, v, r, hd, h, hl => by
    cases v <;> simp only [HasType] at h
    rename_i vs
    simp only [consensus, List.length_cons, List.length_append, length_lenBytes] at hl
    have := consensusAll_len vs
    simp only [consensus, decode, List.cons_append, tagged, if_true, List.append_assoc]
    rw [takeLen_val.2 ⟨rfl, by omega⟩]
    simp only [Dec.bind]
    rw [if_pos h.1, decodeN_all]
    intro u hu r
    have := consensusAll_mem hu
    exact decode_complete (T := e) hd (h.2 u hu) (by omega)
  | .opt t, v, r, hd, h, hl => by
    cases v <;> simp only [HasType] at h
    · simp [consensus, decode]
    · simp only [consensus, List.length_cons] at hl
      simp only [consensus, decode, List.cons_append]
      rw [if_neg (by decide), if_pos trivial, decode_complete (T := t) hd h (by omega)]
      rfl
  | .resp o e, v, r, hd, h, hl => by
    cases v <;> simp only [HasType] at h
    · simp only [consensus, List.length_cons] at hl
      simp only [consensus, decode, List.cons_append]
      rw [if_pos trivial, decode_complete hd.1 h (by omega)]
      rfl
    · simp only [consensus, List.length_cons] at hl
      simp only [consensus, decode, List.cons_append]
      rw [if_neg (by decide), if_pos trivial, decode_complete hd.2 h (by omega)]
      rfl
  | .callable _, _, _, hd, _, _ | .trait _, _, _, hd, _, _ | .traitRef _, _, _, hd, _, _ | .tuple _, _, _, hd, _, _
  | .noType, _, _, hd, _, _ => by simp [Decodable] at hd

/-- Nothing is left unspecified for a decodable type without principals. -/
theorem decode_ne : ∀ {T : Ty} {bs : List Byte}, Decodable T → NoPrincipal T → decode T bs ≠ .deviates
  | .int, bs, _, _ | .uint, bs, _, _ => by
    simp only [decode]
    refine tagged_ne fun r h => ?_
    rcases bind_dev.1 h with h | ⟨_, _, _, h⟩
    · exact takeN_ne h
    · cases h
  | .bool, bs, _, _ => by
    simp only [decode]
    cases bs with
    | nil => simp
    | cons b bs => simp only; split <;> [simp; split <;> simp]
  | .principal, bs, _, h => by simp [NoPrincipal] at h
  | .buff n, bs, _, _ => by
    simp only [decode]
    refine tagged_ne fun r h => ?_
    rcases bind_dev.1 h with h | ⟨_, _, _, h⟩
    · exact takeLen_ne h
    · split at h
      · rcases bind_dev.1 h with h | ⟨_, _, _, h⟩
        · exact takeN_ne h
        · cases h
      · cases h
  | .ascii n, bs, _, _ => by
    simp only [decode]
    refine tagged_ne fun r h => ?_
    rcases bind_dev.1 h with h | ⟨_, _, _, h⟩
    · exact takeLen_ne h
    · split at h
      · rcases bind_dev.1 h with h | ⟨_, _, _, h⟩
        · exact takeN_ne h
        · split at h <;> cases h
      · cases h
  | .utf8 n, bs, _, _ => by
    simp only [decode]
    refine tagged_ne fun r h => ?_
    rcases bind_dev.1 h with h | ⟨_, _, _, h⟩
    · exact takeLen_ne h
    · rcases bind_dev.1 h with h | ⟨_, _, _, h⟩
      · exact takeN_ne h
      · split at h <;> cases h
  | .list n e, bs, hd, hp => by
    simp only [decode]
    refine tagged_ne fun r h => ?_
    rcases bind_dev.1 h with h | ⟨_, _, _, h⟩
    · exact takeLen_ne h
    · split at h
      · rcases bind_dev.1 h with h | ⟨_, _, _, h⟩
        · exact decodeN_ne (fun _ => decode_ne (T := e) hd hp) h
        · cases h
      · cases h
  | .opt t, bs, hd, hp => by
    simp only [decode]
    cases bs with
    | nil => simp
    | cons b bs =>
      simp only
      split
      · simp
      · split
        · intro h
          rcases bind_dev.1 h with h | ⟨_, _, _, h⟩
          · exact decode_ne (T := t) hd hp h
          · cases h
        · simp
  | .resp o e, bs, hd, hp => by
    simp only [decode]
    cases bs with
    | nil => simp
    | cons b bs =>
      simp only
      split
      · intro h
        rcases bind_dev.1 h with h | ⟨_, _, _, h⟩
        · exact decode_ne hd.1 hp.1 h
        · cases h
      · split
        · intro h
          rcases bind_dev.1 h with h | ⟨_, _, _, h⟩
          · exact decode_ne hd.2 hp.2 h
          · cases h
        · simp
  | .callable _, _, hd, _ | .trait _, _, hd, _ | .traitRef _, _, hd, _ | .tuple _, _, hd, _
  | .noType, _, hd, _ => by simp [Decodable] at hd

end Spec
