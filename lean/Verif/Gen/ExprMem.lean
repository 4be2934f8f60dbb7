import Verif.Gen.ExprProof7
import Verif.Gen.ExprBuff
import Verif.Props.Hash
import Verif.Props.Print

/-! Words whose result is in memory: `int-to-ascii`, `int-to-utf8`, `sha256`, `sha512`, `hash160`. -/

namespace Gen
open Spec Core Wasm Host

variable {p : P} {k : Nat} {call : FSem} {wr : Bool}

/-- A numeral as the bytes of a string. -/
theorem numeral_ok {cs : List Nat} (h : ∀ c ∈ cs, isDigit c = true ∨ c = 45) :
    (∀ c ∈ cs.map (BitVec.ofNat 8), asciiOk c.toNat = true) ∧ (∀ c ∈ cs, isScalar c) ∧
      (cs.map (BitVec.ofNat 8)).map BitVec.toNat = cs := by
  have hb : ∀ c ∈ cs, c = 45 ∨ 48 ≤ c ∧ c < 58 := by
    intro c hc
    rcases h c hc with h | h
    · exact .inr ((isDigit_iff c).1 h)
    · exact .inl h
  have hm : ∀ c ∈ cs, (BitVec.ofNat 8 c).toNat = c := by
    intro c hc
    have := hb c hc
    rw [BitVec.toNat_ofNat]; omega
  refine ⟨?_, ?_, ?_⟩
  · intro c hc
    obtain ⟨x, hx, rfl⟩ := List.mem_map.1 hc
    have := hb x hx
    rw [hm x hx]
    simp [asciiOk]; omega
  · intro c hc
    have := hb c hc
    unfold isScalar; omega
  · rw [List.map_map]
    exact (List.map_congr_left fun c hc => hm c hc).trans (List.map_id _)

theorem decStr_chars {n : Nat} : ∀ c ∈ decStr n, isDigit c = true ∨ c = 45 := by
  intro c hc
  exact .inl (List.all_eq_true.1 (Props.decStr_canonical n).1 c hc)

theorem intStr_chars {z : Int} : ∀ c ∈ intStr z, isDigit c = true ∨ c = 45 := by
  intro c hc
  unfold intStr at hc
  split at hc
  · rcases List.mem_cons.1 hc with rfl | hc
    · exact .inr rfl
    · exact decStr_chars c hc
  · exact decStr_chars c hc

/-- The library function of one of these words: the result has its type, is at `out`, and nothing below is changed. -/
def MemRun (M : Wasm.Mod World) (f : StdFn) (ws : List Val) (out : BitVec 32) (g : Store World) (T : Ty) (z : Nat)
    (u : Value) : Prop :=
  ∃ (m' : Mem) (l : BitVec 32), Runs M (.std f) (ws ++ [.i32 out]) g (.ret [.i32 out, .i32 l] (g.setMem m')) ∧
    l.toNat ≤ z ∧ m'.size = g.mem.size ∧ (∀ i, i < out.toNat → m'.byte i = g.mem.byte i) ∧
    ∀ b : Reg, b.Has out.toNat l.toNat → Rep m' b T u [.i32 out, .i32 l]

theorem memRun_ascii {M : Wasm.Mod World} {f : StdFn} {ws : List Val} {out : BitVec 32} {g : Store World} {m : Nat}
    {cs : List Nat} (hc : ∀ c ∈ cs, isDigit c = true ∨ c = 45) (hl : cs.length ≤ m) (hs : cs.length < 2 ^ 32)
    (h : ∃ m', Runs M (.std f) (ws ++ [.i32 out]) g (.ret [.i32 out, .i32 (BitVec.ofNat 32 cs.length)] (g.setMem m')) ∧
      asciiAt m' out.toNat cs.length = cs ∧ Props.Printed g.mem m' out.toNat 1 cs.length) :
    MemRun M f ws out g (.ascii m) m (.ascii (cs.map (BitVec.ofNat 8))) := by
  obtain ⟨m', h1, h2, h3, h4⟩ := h
  obtain ⟨q1, -, q3⟩ := numeral_ok hc
  have el : (BitVec.ofNat 32 cs.length).toNat = cs.length := by rw [BitVec.toNat_ofNat]; omega
  refine ⟨m', _, h1, by omega, h3, fun i hi => h4 i (.inl hi), fun b hb => ?_⟩
  simp only [Rep, HasType, memBytes]
  refine ⟨⟨by simpa using hl, q1⟩, _, _, rfl, by simpa using el, ?_, ?_⟩
  · rw [el] at hb; simpa using hb
  · rw [List.length_map]
    have : (bytesAt m' out.toNat cs.length).map BitVec.toNat = (cs.map (BitVec.ofNat 8)).map BitVec.toNat := by
      rw [q3]; exact h2
    exact List.map_injective_iff.2 (fun _ _ => BitVec.eq_of_toNat_eq) this

theorem memRun_utf8 {M : Wasm.Mod World} {f : StdFn} {ws : List Val} {out : BitVec 32} {g : Store World} {m : Nat}
    {cs : List Nat} (hc : ∀ c ∈ cs, isDigit c = true ∨ c = 45) (hl : cs.length ≤ m) (hs : 4 * cs.length < 2 ^ 32)
    (h : ∃ m', Runs M (.std f) (ws ++ [.i32 out]) g (.ret [.i32 out, .i32 (BitVec.ofNat 32 (4 * cs.length))] (g.setMem m')) ∧
      scalarsAt m' out.toNat cs.length = cs ∧ Props.Printed g.mem m' out.toNat 4 cs.length) :
    MemRun M f ws out g (.utf8 m) (4 * m) (.utf8 cs) := by
  obtain ⟨m', h1, h2, h3, h4⟩ := h
  obtain ⟨-, q2, -⟩ := numeral_ok hc
  have el : (BitVec.ofNat 32 (4 * cs.length)).toNat = 4 * cs.length := by rw [BitVec.toNat_ofNat]; omega
  refine ⟨m', _, h1, by omega, h3, fun i hi => h4 i (.inl hi), fun b hb => ?_⟩
  simp only [Rep, HasType, memBytes]
  have e4 : (cs.flatMap beBytes4).length = 4 * cs.length := (flatMap4_length _).trans (Nat.mul_comm _ _)
  refine ⟨⟨hl, q2⟩, _, _, rfl, by rw [e4]; exact el, ?_, ?_⟩
  · rw [e4]; rw [el] at hb; exact hb
  · exact bytes_scalarsAt h2

theorem memRun_buff {M : Wasm.Mod World} {f : StdFn} {ws : List Val} {out : BitVec 32} {g : Store World} {n space : Nat}
    {bs : List Byte} (hn : n < 2 ^ 32) (hle : out.toNat ≤ sp g)
    (h : Props.Hashes M (.std f) (ws ++ [.i32 out]) g out n space bs) : MemRun M f ws out g (.buff n) n (.buff bs) := by
  obtain ⟨m', h1, h2, h3, h4⟩ := h
  have hsp : (g.g32 .stackPointer).toNat = sp g := rfl
  have el : (BitVec.ofNat 32 n).toNat = n := by rw [BitVec.toNat_ofNat]; omega
  have hb : bs.length = n := by rw [← h2]; exact Wasm.length_bytesAt _ _ _
  refine ⟨m', _, h1, by omega, h3, fun i hi => h4 i (.inl hi) (.inl (by omega)), fun b hb' => ?_⟩
  simp only [Rep, HasType, memBytes]
  refine ⟨by omega, _, _, rfl, by omega, ?_, by rw [hb]; exact h2⟩
  rw [hb, ← el]; exact hb'

/-- The words with a result in memory. -/
theorem mem_fn {M : Wasm.Mod World} {K : Ctx} {q : MWord} {S T : Ty} {v : Value} {ws : List Val} {b : Reg} {out : BitVec 32}
    {g : Store World} (ht : memTy K q S T) (hv : Rep g.mem b S v ws) (hb : b.hi ≤ out.toNat)
    (hd : Props.HoldsStdData g.mem) (ho : 1352 ≤ out.toNat)
    (hsp : sp g = out.toNat + stackLocalSize T false true) (hr : sp g + K.ws ≤ g.mem.size)
    (hsmall : g.mem.size + 65536 ≤ 2 ^ 32) :
    ∃ u, q.eval v = .ok u ∧ MemRun M (memFn q S) ws out g T (stackLocalSize T false true) u := by
  have esp : (g.g32 .stackPointer).toNat = sp g := rfl
  have ready : ∀ n space, T = .buff n → space ≤ K.ws → Props.HashReady g out n space := by
    intro n space hT hs
    have hz : stackLocalSize T false true = n := by rw [hT]; simp [stackLocalSize, typeInMemorySize]
    exact ⟨hd, by omega, by omega, by omega, .inl (by omega)⟩
  have hbuf : ∀ m, S = .buff m → ∃ bs, ∃ o l : BitVec 32, v = .buff bs ∧ ws = [.i32 o, .i32 l] ∧ bs.length ≤ m ∧
      l.toNat = bs.length ∧ o.toNat + l.toNat ≤ out.toNat ∧ bytesAt g.mem o.toNat l.toNat = bs := by
    intro m hS
    subst hS
    simp only [Rep] at hv
    obtain ⟨ht, o, l, rfl, e1, e2, e3⟩ := hv
    cases v <;> simp only [HasType] at ht
    simp only [memBytes] at e1 e2 e3
    have := e2.1
    exact ⟨_, o, l, rfl, rfl, ht, e1, by omega, by rw [e1]; exact e3⟩
  cases q with
  | intToAscii =>
    obtain ⟨hS, m, hm, hm2, rfl⟩ := ht
    have hz : stackLocalSize (.ascii m) false true = m := by simp [stackLocalSize, typeInMemorySize]
    rw [hz] at hsp ⊢
    rcases hS with rfl | rfl <;> simp only [Rep] at hv <;> obtain ⟨x, rfl, hx, rfl⟩ := hv
    · have := Props.length_intStr hx
      exact ⟨_, rfl, memRun_ascii intStr_chars (by omega) (by omega)
        (Props.C12_int_to_string M g hx out (by omega) (by omega) (by omega))⟩
    · have := Props.length_decStr_uint hx
      exact ⟨_, rfl, memRun_ascii decStr_chars (by omega) (by omega)
        (Props.C12_uint_to_string M g hx out (by omega) (by omega) (by omega))⟩
  | intToUtf8 =>
    obtain ⟨hS, m, hm, hm2, rfl⟩ := ht
    have hz : stackLocalSize (.utf8 m) false true = 4 * m := by simp [stackLocalSize, typeInMemorySize, Nat.mul_comm]
    rw [hz] at hsp ⊢
    rcases hS with rfl | rfl <;> simp only [Rep] at hv <;> obtain ⟨x, rfl, hx, rfl⟩ := hv
    · have := Props.length_intStr hx
      exact ⟨_, rfl, memRun_utf8 intStr_chars (by omega) (by omega)
        (Props.C12_int_to_utf8 M g hx out (by omega) (by omega) (by omega))⟩
    · have := Props.length_decStr_uint hx
      exact ⟨_, rfl, memRun_utf8 decStr_chars (by omega) (by omega)
        (Props.C12_uint_to_utf8 M g hx out (by omega) (by omega) (by omega))⟩
  | sha256 =>
    obtain ⟨rfl, h⟩ := ht
    have hz : stackLocalSize (.buff 32) false true = 32 := by simp [stackLocalSize, typeInMemorySize]
    rw [hz] at hsp ⊢
    rcases h with ⟨hS, hw⟩ | ⟨m, rfl, hm, hw⟩
    · rcases hS with rfl | rfl <;> simp only [Rep] at hv <;> obtain ⟨x, rfl, hx, rfl⟩ := hv
      · exact ⟨_, rfl, memRun_buff (by omega) (by omega) (Props.C40_sha256_int M g x hx out (ready _ _ rfl hw))⟩
      · exact ⟨_, rfl, memRun_buff (by omega) (by omega) (Props.C40_sha256_uint M g x hx out (ready _ _ rfl hw))⟩
    · obtain ⟨bs, o, l, rfl, rfl, h1, h2, h3, h4⟩ := hbuf m rfl
      refine ⟨_, rfl, memRun_buff (space := l.toNat + 361) (by omega) (by omega) ?_⟩
      have := Props.C40_sha256_buf M g o l out (by omega) (by omega) (.inl (by omega)) (ready _ _ rfl (by omega))
      rw [h4] at this
      exact this
  | sha512 =>
    obtain ⟨rfl, h⟩ := ht
    have hz : stackLocalSize (.buff 64) false true = 64 := by simp [stackLocalSize, typeInMemorySize]
    rw [hz] at hsp ⊢
    rcases h with ⟨hS, hw⟩ | ⟨m, rfl, hm, hw⟩
    · rcases hS with rfl | rfl <;> simp only [Rep] at hv <;> obtain ⟨x, rfl, hx, rfl⟩ := hv
      · exact ⟨_, rfl, memRun_buff (by omega) (by omega) (Props.C40_sha512_int M g x hx out (ready _ _ rfl hw))⟩
      · exact ⟨_, rfl, memRun_buff (by omega) (by omega) (Props.C40_sha512_uint M g x hx out (ready _ _ rfl hw))⟩
    · obtain ⟨bs, o, l, rfl, rfl, h1, h2, h3, h4⟩ := hbuf m rfl
      refine ⟨_, rfl, memRun_buff (space := l.toNat + 849) (by omega) (by omega) ?_⟩
      have := Props.C40_sha512_buf M g o l out (by omega) (by omega) (.inl (by omega)) (ready _ _ rfl (by omega))
      rw [h4] at this
      exact this
  | hash160 =>
    obtain ⟨rfl, h⟩ := ht
    have hz : stackLocalSize (.buff 20) false true = 20 := by simp [stackLocalSize, typeInMemorySize]
    rw [hz] at hsp ⊢
    rcases h with ⟨hS, hw⟩ | ⟨m, rfl, hm, hw⟩
    · rcases hS with rfl | rfl <;> simp only [Rep] at hv <;> obtain ⟨x, rfl, hx, rfl⟩ := hv
      · exact ⟨_, rfl, memRun_buff (by omega) (by omega) (Props.C41_hash160_int_partial M g x hx out (ready _ _ rfl hw))⟩
      · exact ⟨_, rfl, memRun_buff (by omega) (by omega) (Props.C41_hash160_uint_partial M g x hx out (ready _ _ rfl hw))⟩
    · obtain ⟨bs, o, l, rfl, rfl, h1, h2, h3, h4⟩ := hbuf m rfl
      refine ⟨_, rfl, memRun_buff (space := l.toNat + 392) (by omega) (by omega) ?_⟩
      have := Props.C41_hash160_buf_partial M g o l out (by omega) (by omega) (ready _ _ rfl (by omega))
      rw [h4] at this
      exact this

theorem std_last : stdData.any (fun d => d.1 == 712 && d.2.length == 640) = true := by decide +kernel

/-- The data segments of the library are in memory, below the stack. -/
theorem std_held {K : Ctx} {m : Mem} {b : Reg} (h : StdIn K) (hl : LitOk K m b) :
    Props.HoldsStdData m ∧ 1352 ≤ b.hi := by
  refine ⟨fun d hd => ?_, ?_⟩
  · obtain ⟨h1, h2⟩ := h d hd
    have := (hl _ h1).2
    rwa [h2] at this
  · obtain ⟨d, hd, e⟩ := List.any_eq_true.1 std_last
    simp only [Bool.and_eq_true, beq_iff_eq] at e
    obtain ⟨h1, h2⟩ := h d hd
    have := (hl _ h1).1.1
    omega

theorem good_mem (hb : need p.K k ≤ p.base) {q : MWord} {S : Ty} {e : Expr} (he : EGood p k call wr e) :
    EGood p k call wr (.mem q S e) := by
  intro T er Δ Γ ρ n w c s d stk loc g ht ok
  simp only [wt] at ht
  obtain ⟨hstd, htm, hte⟩ := ht
  have hws : p.K.ws ≤ p.base := Nat.le_trans (by unfold need; omega) hb
  simp only [compile, List.length_append] at ok
  simp only [compile, eval]
  generalize hA : compile p.K p.R e S d Γ n = A at *
  refine EGood.then he hte hA ok ?_
  intro v s' ws loc' g' _ hf ok' hv
  generalize hn1 : n + A.ls.length = n1 at *
  have hcode : ∃ r : List Instr, (memCode q S T n1).is = allocCode n1 (stackLocalSize T false true) ++
      (r ++ [lget n1, .call (.std (memFn q S))]) ∧ (memCode q S T n1).al = stackLocalSize T false true ∧
      1 ≤ (memCode q S T n1).ls.length ∧
      (r = [] ∨ r = [.b (.localTee (n1 + 1))] ∧ 2 ≤ (memCode q S T n1).ls.length ∧ ∃ m, S = .buff m) := by
    unfold memCode
    split
    · exact ⟨[], rfl, rfl, by simp, .inl rfl⟩
    · exact ⟨[], rfl, rfl, by simp, .inl rfl⟩
    · exact ⟨[.b (.localTee (n1 + 1))], rfl, rfl, by simp, .inr ⟨rfl, by simp, _, rfl⟩⟩
    · exact ⟨[], rfl, rfl, by simp, .inl rfl⟩
  obtain ⟨r, hcis, hcal, hcl, hr⟩ := hcode
  rw [hcis, hcal]
  have hroom := ok'.inv.room
  rw [hcal] at hroom
  have hsmall := ok'.inv.small
  have hlocs := ok'.locs
  obtain ⟨hdata, hlow⟩ := std_held hstd ok'.inv.lits
  have hlow : 1352 ≤ sp g' := hlow
  obtain ⟨loc1, g1, h1, hf1, h3, h4, h5, h6, h7⟩ := steps_alloc (M := p.M) (stk := ws.reverse ++ stk) (n := n1) (loc := loc') (g := g')
    (size := stackLocalSize T false true) (by omega) (by omega)
  have hsp : (g'.g32 .stackPointer).toNat = sp g' := rfl
  have hL1 := hf1.len
  have hv1 : Rep g1.mem (p.reg g') S v ws := by rw [h5]; exact hv
  obtain ⟨u, hu, m', l, hrun, hl, hsz, hbel, hrep⟩ := mem_fn (M := p.M) (out := g'.g32 .stackPointer) htm hv1 (Nat.le_refl _)
    (by rw [h5]; exact hdata) (by omega) (by omega) (by rw [h5]; omega) (by rw [h5]; omega)
  obtain ⟨loc2, h8, hL2, hk2⟩ : ∃ loc2, Steps p.M r (ws.reverse ++ stk) loc1 g1 (ws.reverse ++ stk) loc2 g1 ∧
      loc2.length = loc1.length ∧ ∀ i, i ≠ n1 + 1 → loc2[i]? = loc1[i]? := by
    rcases hr with rfl | ⟨rfl, hl2, m, rfl⟩
    · exact ⟨loc1, Steps.refl, rfl, fun _ _ => rfl⟩
    · simp only [Rep] at hv
      obtain ⟨-, o, l', rfl, -⟩ := hv
      refine ⟨loc1.set (n1 + 1) (.i32 l'), Steps.b ?_, by simp, fun i hi => List.getElem?_set_ne (by omega)⟩
      simp only [List.reverse_cons, List.reverse_nil, List.nil_append, List.cons_append, stepB]
      rw [if_pos (by omega)]
  have h9 : Steps p.M [lget n1, .call (.std (memFn q S))] (ws.reverse ++ stk) loc2 g1
      (.i32 l :: .i32 (g'.g32 .stackPointer) :: stk) loc2 (g1.setMem m') := by
    have hg : loc2[n1]? = some (.i32 (g'.g32 .stackPointer)) := by rw [hk2 n1 (by omega)]; exact h3
    refine Steps.cons (steps_get hg) ?_
    refine Steps.of_wp fun Q => ?_
    have hsig : p.M.sig (.std (memFn q S)) = some ((stdFunc (memFn q S)).params, (stdFunc (memFn q S)).results) := rfl
    have hlen : (ws ++ [Val.i32 (g'.g32 .stackPointer)]).length = (stdFunc (memFn q S)).params.length := by
      rw [List.length_append, hv.len]
      cases q <;> simp only [memTy] at htm
      all_goals first
        | (rcases htm.1 with rfl | rfl <;> rfl)
        | (rcases htm.2 with ⟨h | h, -⟩ | ⟨m, h, -⟩ <;> subst h <;> rfl)
    have := wp_call_runs (is := []) (stk := stk) (loc := loc2) (Q := Q) hsig hlen hrun (by simp)
    rw [List.reverse_append] at this
    simp only [List.reverse_cons, List.reverse_nil, List.nil_append, List.cons_append, callK_ret, wp_nil] at this
    exact this
  rw [hu]
  refine Does.ends (ws := [.i32 (g'.g32 .stackPointer), .i32 l]) (loc1 := loc2) (g1 := g1.setMem m')
    (h1.append (h8.append h9)) ?_ ?_ ok'.inv.st ?_
  · refine ⟨by omega, ?_, ?_, ?_, ?_, ?_⟩
    · intro i hi
      rw [hk2 i (by omega), h4 i (by omega)]
    · intro i hi
      rw [mem_setMem, hbel i hi, h5]
    · rw [mem_setMem, hsz, h5]
    · show sp g' ≤ sp g1; omega
    · show sp g1 ≤ _; omega
  · show g1.host = _
    rw [h6, ok'.inv.host]
  · refine hrep _ ⟨?_, ?_⟩
    · show _ ≤ sp g1
      omega
    · intro i h1 h2 h3
      have := ok'.inv.holes i h3
      omega

end Gen
