import Verif.Gen.ExprProof7

/-! Code of the words on STX and fungible tokens. -/

namespace Gen
open Wasm Spec Host Core

theorem amount_enc {n : Nat} (h : IsUInt n) :
    amountOf (BitVec.ofNat 64 n) (BitVec.ofNat 64 (n / 2 ^ 64)) = n := by
  unfold IsUInt at h
  simp only [amountOf, BitVec.toNat_ofNat]
  omega

/-- A principal operand is read back by the host. -/
theorem rep_prin {m : Mem} {b : Reg} {v : Value} {ws : List Val} (hb : b.hi ≤ m.size)
    (h : Rep m b .principal v ws) :
    ∃ q o l, v = .principal q ∧ ws = [.i32 o, .i32 l] ∧ readPrin m o l = some q := by
  simp only [Rep] at h
  obtain ⟨hv, o, l, rfl, hl, hlt, hby⟩ := h
  replace hlt := hlt.1
  cases v <;> try (exfalso; simp only [HasType] at hv; done)
  rename_i q
  refine ⟨q, o, l, rfl, rfl, ?_⟩
  unfold readPrin
  simp only [readFromWasm]
  rw [readPrincipal_ok (by simp) hv (by simp only [memBytes] at hlt; omega) hby]

/-- An amount operand. -/
theorem rep_amount {m : Mem} {b : Reg} {v : Value} {ws : List Val} (h : Rep m b .uint v ws) :
    ∃ n lo hi, v = .uint n ∧ IsUInt n ∧ ws = [.i64 lo, .i64 hi] ∧ amountOf lo hi = n := by
  simp only [Rep, encU] at h
  obtain ⟨n, rfl, hn, rfl⟩ := h
  exact ⟨n, _, _, rfl, hn, rfl, amount_enc hn⟩

/-- A memo. -/
theorem rep_memo {m : Mem} {b : Reg} {k : Nat} {v : Value} {ws : List Val} (hb : b.hi ≤ m.size) (hk : k ≤ 34)
    (h : Rep m b (.buff k) v ws) :
    ∃ bs o l, v = .buff bs ∧ ws = [.i32 o, .i32 l] ∧
      (if 0 < l.toInt then memRead m o.toNat l.toNat else some []) = some bs := by
  simp only [Rep] at h
  obtain ⟨hv, o, l, rfl, hl, hlt, hby⟩ := h
  replace hlt := hlt.1
  cases v <;> try (exfalso; simp only [HasType] at hv; done)
  rename_i bs
  simp only [HasType] at hv
  simp only [memBytes] at hl hlt hby
  refine ⟨bs, o, l, rfl, rfl, ?_⟩
  have hi : l.toInt = (l.toNat : Int) := by
    rw [BitVec.toInt_eq_toNat_cond, if_pos (by omega)]
  by_cases h0 : 0 < l.toInt
  · rw [if_pos h0, hl, memRead_ok (by omega), hby]
  · rw [if_neg h0]
    have : bs.length = 0 := by omega
    rw [List.length_eq_zero_iff.1 this]

theorem rep_okTrue {m : Mem} {b : Reg} : Rep m b (.resp .bool .uint) (.ok (.bool true)) okTrue := by
  simp only [Rep]
  exact .inl ⟨_, [.i32 1#32], [.i64 0#64, .i64 0#64], rfl, rfl, ⟨true, rfl, rfl⟩, rfl⟩

theorem rep_errUint {m : Mem} {b : Reg} {k : Nat} (hk : k < 5) : Rep m b (.resp .bool .uint) (uerr k) (errUint k) := by
  simp only [Rep, uerr]
  have h0 : k / 2 ^ 64 = 0 := by omega
  refine .inr ⟨_, [.i64 (BitVec.ofNat 64 k), .i64 0#64], [.i32 0#32], rfl, rfl, ⟨k, rfl, ?_, ?_⟩, rfl⟩
  · unfold IsUInt; omega
  · rw [encU, h0]

/-- The name of a token is read back. -/
theorem read_name {K : Ctx} {m : Mem} {b : Reg} {x : Name} (h : LitOk K m b) (hx : tokenIn K x)
    (hb : b.hi ≤ m.size) (hs : m.size < 2 ^ 32) :
    readClarityName m (BitVec.ofNat 32 (K.off x)) (BitVec.ofNat 32 x.length) = some x := by
  unfold readClarityName
  rw [readIdent_lit h hx.1 hb hs]
  show (if _ then some x else none) = _
  rw [if_pos hx.2.2]

theorem StOk.setFt {K : Ctx} {me : ContractId} {s : St} {x : Name} {t : Ft} (h : StOk K me s)
    (h1 : t.supply < 2 ^ 128) (h2 : ∀ p, t.bal p < 2 ^ 128) : StOk K me (s.setFt me x t) where
  vars := h.vars
  maps := h.maps
  fts y hy := by
    obtain ⟨t', a, b⟩ := h.fts y hy
    by_cases e : y = x
    · subst e
      exact ⟨t, by simp [St.setFt, upd₂], h1, h2⟩
    · exact ⟨t', by simpa [St.setFt, upd₂, e] using a, b⟩

theorem StOk.setStx {K : Ctx} {me : ContractId} {s : St} {f : Principal → Nat} {l : Nat} (h : StOk K me s) :
    StOk K me (s.setStx f l) := ⟨h.vars, h.maps, h.fts⟩

theorem StOk.emit {K : Ctx} {me : ContractId} {s : St} {e : Event} (h : StOk K me s) : StOk K me (s.emit e) :=
  ⟨h.vars, h.maps, h.fts⟩

theorem moved_upd (f : Principal → Nat) (a b : Principal) (n : Nat) :
    upd (upd f a (f a - n)) b (f b + n) = moved f a b n := by
  funext p
  simp only [upd, moved]
  split
  · rfl
  · split <;> rfl

theorem moved_lt {f : Principal → Nat} {a b : Principal} {n N : Nat} (h : ∀ p, f p < N) (hb : f b + n < N) (p : Principal) :
    moved f a b n p < N := by
  have := h p
  have := h a
  unfold moved
  split
  · exact hb
  · split <;> omega

theorem upd_lt {f : Principal → Nat} {a : Principal} {n N : Nat} (h : ∀ p, f p < N) (hn : n < N) (p : Principal) :
    upd f a n p < N := by
  unfold upd
  split
  · exact hn
  · exact h p

/-- What the host returns and does is the value and the state `o`. -/
def Ended (K : Ctx) (w : World) (b : Reg) (g : Store World) (T : Ty) (o : Out Value) (r : HRes World) : Prop :=
  ∃ v s' us, o = .val v s' ∧ r = .ret us (withHost g (Gen.put w s')) ∧ StOk K w.contract s' ∧ Rep g.mem b T v us

section
variable {K : Ctx} {w : World} {wr : Bool} {b : Reg} {g : Store World} {c : Cx} {s : St}

theorem ended_same {T : Ty} {v : Value} {us : List Val} (hh : g.host = Gen.put w s) (hs : StOk K w.contract s)
    (h : Rep g.mem b T v us) : Ended K w b g T (.val v s) (.ret us g) :=
  ⟨v, s, us, rfl, by rw [← hh]; rfl, hs, h⟩

theorem ended_err {k : Nat} (hh : g.host = Gen.put w s) (hs : StOk K w.contract s) (hk : k < 5) :
    Ended K w b g (.resp .bool .uint) (.val (uerr k) s) (.ret (errUint k) g) :=
  ended_same hh hs (rep_errUint hk)

theorem ended_ok {s' : St} {g' : Store World} (hs : StOk K w.contract s') (hg : g' = withHost g (Gen.put w s')) :
    Ended K w b g (.resp .bool .uint) (.val (.ok (.bool true)) s') (.ret okTrue g') :=
  ⟨_, s', _, rfl, by rw [hg], hs, rep_okTrue⟩

theorem ended_stxMove {n : Nat} {x y : Principal} {memo : List Byte} (hh : g.host = Gen.put w s)
    (hs : StOk K w.contract s) (hc : CxOk c w wr) (hd : stxMove n x y memo c s ≠ .deviates) :
    Ended K w b g (.resp .bool .uint) (stxMove n x y memo c s) (Host.stxTransfer g n x y memo) := by
  have hv : g.host.view = s.db := by rw [hh, view_put hc]
  have hsd : g.host.sender = some c.sender := by rw [hh]; exact hc.sender
  unfold stxMove at hd ⊢
  unfold Host.stxTransfer
  simp only [hv, hsd]
  by_cases h0 : n = 0
  · rw [if_pos h0, if_pos h0]; exact ended_err hh hs (by decide)
  · rw [if_neg h0] at hd ⊢
    rw [if_neg h0]
    by_cases h1 : x = y
    · rw [if_pos h1, if_pos h1]; exact ended_err hh hs (by decide)
    · rw [if_neg h1] at hd ⊢
      rw [if_neg h1]
      by_cases h2 : x = c.sender
      · rw [if_neg (show ¬ (x ≠ c.sender) from fun h => h h2)] at hd ⊢
        rw [if_neg (show ¬ (some x ≠ some c.sender) from fun h => h (congrArg some h2))]
        by_cases h3 : s.db.stx x < n
        · rw [if_pos h3, if_pos h3]; exact ended_err hh hs (by decide)
        · rw [if_neg h3] at hd ⊢
          rw [if_neg h3]
          by_cases h4 : s.db.stx y + n < 2 ^ 128
          · rw [if_pos h4, if_pos h4]
            refine ended_ok hs.setStx.emit ?_
            rw [hh, ← moved_upd]
            rfl
          · rw [if_neg h4] at hd
            exact absurd rfl hd
      · rw [if_pos h2, if_pos (show some x ≠ some c.sender from fun h => h2 (Option.some.inj h))]; exact ended_err hh hs (by decide)

theorem ended_stxBurn {n : Nat} {x : Principal} (hh : g.host = Gen.put w s)
    (hs : StOk K w.contract s) (hc : CxOk c w wr) (hd : TWord.stxBurn.run [.uint n, .principal x] c s ≠ .deviates) :
    Ended K w b g (.resp .bool .uint) (TWord.stxBurn.run [.uint n, .principal x] c s) (Host.stxBurn g n x) := by
  have hv : g.host.view = s.db := by rw [hh, view_put hc]
  have hsd : g.host.sender = some c.sender := by rw [hh]; exact hc.sender
  simp only [TWord.run] at hd ⊢
  unfold Host.stxBurn
  simp only [hv, hsd]
  by_cases h0 : n = 0
  · rw [if_pos h0, if_pos h0]; exact ended_err hh hs (by decide)
  · rw [if_neg h0] at hd ⊢
    rw [if_neg h0]
    by_cases h2 : x = c.sender
    · rw [if_neg (show ¬ (x ≠ c.sender) from fun h => h h2)] at hd ⊢
      rw [if_neg (show ¬ (some x ≠ some c.sender) from fun h => h (congrArg some h2))]
      by_cases h3 : s.db.stx x < n
      · rw [if_pos h3, if_pos h3]; exact ended_err hh hs (by decide)
      · rw [if_neg h3] at hd ⊢
        rw [if_neg h3]
        by_cases h4 : s.db.liquid < n
        · rw [if_pos h4] at hd
          exact absurd rfl hd
        · rw [if_neg h4, if_neg h4]
          refine ended_ok hs.setStx.emit ?_
          rw [hh]
          rfl
    · rw [if_pos h2, if_pos (show some x ≠ some c.sender from fun h => h2 (Option.some.inj h))]; exact ended_err hh hs (by decide)

/-- The token of a well-typed program. -/
theorem token_found {x : Name} (hh : g.host = Gen.put w s) (hs : StOk K w.contract s) (hc : CxOk c w wr)
    (hx : tokenIn K x) : ∃ t, s.db.ft c.self x = some t ∧ g.host.view.ft g.host.contract x = some t ∧
      t.supply < 2 ^ 128 ∧ ∀ q, t.bal q < 2 ^ 128 := by
  obtain ⟨t, h1, h2, h3⟩ := hs.fts x hx.2.1
  refine ⟨t, by rw [← hc.self]; exact h1, ?_, h2, h3⟩
  rw [hh, view_put hc]
  exact h1

theorem setFt_put {x : Name} {t : Ft} (hh : g.host = Gen.put w s) (hc : CxOk c w wr) :
    setFt g x t = withHost g (Gen.put w (s.setFt c.self x t)) := by
  rw [← hc.self]
  unfold setFt
  rw [hh]
  rfl

theorem emit_put {e : Event} {g' : Store World} (h : g' = withHost g (Gen.put w s)) :
    Host.emit g' e = withHost g (Gen.put w (s.emit e)) := by
  subst h; rfl

theorem ended_ftMint {x : Name} {n : Nat} {q : Principal} (hh : g.host = Gen.put w s)
    (hs : StOk K w.contract s) (hc : CxOk c w wr) (hx : tokenIn K x)
    (hd : (TWord.ftMint x).run [.uint n, .principal q] c s ≠ .deviates) :
    Ended K w b g (.resp .bool .uint) ((TWord.ftMint x).run [.uint n, .principal q] c s) (Host.ftMint g x n q) := by
  obtain ⟨t, h1, h2, h3, h4⟩ := token_found hh hs hc hx
  simp only [TWord.run, h1] at hd ⊢
  unfold Host.ftMint
  simp only [h2]
  by_cases h0 : n = 0
  · rw [if_pos h0, if_pos h0]; exact ended_err hh hs (by decide)
  · rw [if_neg h0] at hd ⊢
    rw [if_neg h0]
    by_cases h5 : t.supply + n < 2 ^ 128 ∧ (∀ m, t.cap = some m → t.supply + n ≤ m) ∧ t.bal q + n < 2 ^ 128
    · rw [if_pos h5, if_pos (show supplyOk t n from ⟨h5.1, h5.2.1⟩), if_pos h5.2.2]
      have hself := hc.self
      refine ended_ok (StOk.emit ?_) ?_
      · rw [← hself]
        exact hs.setFt h5.1 (upd_lt h4 h5.2.2)
      · rw [← show g.host.contract = c.self by rw [hh]; exact hself]
        rw [show g.host.contract = c.self by rw [hh]; exact hself]
        exact emit_put (setFt_put hh hc)
    · rw [if_neg h5] at hd
      exact absurd rfl hd

theorem ended_ftBurn {x : Name} {n : Nat} {q : Principal} (hh : g.host = Gen.put w s)
    (hs : StOk K w.contract s) (hc : CxOk c w wr) (hx : tokenIn K x)
    (hd : (TWord.ftBurn x).run [.uint n, .principal q] c s ≠ .deviates) :
    Ended K w b g (.resp .bool .uint) ((TWord.ftBurn x).run [.uint n, .principal q] c s) (Host.ftBurn g x n q) := by
  obtain ⟨t, h1, h2, h3, h4⟩ := token_found hh hs hc hx
  simp only [TWord.run, h1] at hd ⊢
  unfold Host.ftBurn
  simp only [h2]
  by_cases h0 : n = 0
  · rw [if_pos h0, if_pos h0]; exact ended_err hh hs (by decide)
  · rw [if_neg h0] at hd ⊢
    rw [if_neg h0]
    by_cases h5 : t.bal q < n
    · rw [if_pos h5, if_pos h5]; exact ended_err hh hs (by decide)
    · rw [if_neg h5] at hd ⊢
      rw [if_neg h5]
      by_cases h6 : t.supply < n
      · rw [if_pos h6] at hd
        exact absurd rfl hd
      · rw [if_neg h6, if_neg h6]
        have hself := hc.self
        refine ended_ok (StOk.emit ?_) ?_
        · rw [← hself]
          refine hs.setFt ?_ (upd_lt h4 ?_)
          · show t.supply - n < _
            omega
          · have := h4 q
            omega
        · rw [show g.host.contract = c.self by rw [hh]; exact hself]
          exact emit_put (setFt_put hh hc)

theorem ended_ftTransfer {x : Name} {n : Nat} {q r : Principal} (hh : g.host = Gen.put w s)
    (hs : StOk K w.contract s) (hc : CxOk c w wr) (hx : tokenIn K x)
    (hd : (TWord.ftTransfer x).run [.uint n, .principal q, .principal r] c s ≠ .deviates) :
    Ended K w b g (.resp .bool .uint) ((TWord.ftTransfer x).run [.uint n, .principal q, .principal r] c s)
      (Host.ftTransfer g x n q r) := by
  obtain ⟨t, h1, h2, h3, h4⟩ := token_found hh hs hc hx
  simp only [TWord.run, h1] at hd ⊢
  unfold Host.ftTransfer
  simp only [h2]
  by_cases h0 : n = 0
  · rw [if_pos h0, if_pos h0]; exact ended_err hh hs (by decide)
  · rw [if_neg h0] at hd ⊢
    rw [if_neg h0]
    by_cases h7 : q = r
    · rw [if_pos h7, if_pos h7]; exact ended_err hh hs (by decide)
    · rw [if_neg h7] at hd ⊢
      rw [if_neg h7]
      by_cases h5 : t.bal q < n
      · rw [if_pos h5, if_pos h5]; exact ended_err hh hs (by decide)
      · rw [if_neg h5] at hd ⊢
        rw [if_neg h5]
        by_cases h6 : t.bal r + n < 2 ^ 128
        · rw [if_pos h6, if_pos h6, moved_upd]
          have hself := hc.self
          refine ended_ok (StOk.emit ?_) ?_
          · rw [← hself]
            exact hs.setFt h3 (moved_lt h4 h6)
          · rw [show g.host.contract = c.self by rw [hh]; exact hself]
            exact emit_put (setFt_put hh hc)
        · rw [if_neg h6] at hd
          exact absurd rfl hd

theorem ended_ftSupply {x : Name} (hh : g.host = Gen.put w s)
    (hs : StOk K w.contract s) (hc : CxOk c w wr) (hx : tokenIn K x) :
    Ended K w b g .uint ((TWord.ftSupply x).run [] c s) (Host.ftGetSupply g x) := by
  obtain ⟨t, h1, h2, h3, h4⟩ := token_found hh hs hc hx
  simp only [TWord.run, h1]
  unfold Host.ftGetSupply
  simp only [h2]
  exact ended_same hh hs (by simp only [Rep]; exact ⟨_, rfl, h3, rfl⟩)

theorem ended_ftBalance {x : Name} {q : Principal} (hh : g.host = Gen.put w s)
    (hs : StOk K w.contract s) (hc : CxOk c w wr) (hx : tokenIn K x) :
    Ended K w b g .uint ((TWord.ftBalance x).run [.principal q] c s) (Host.ftGetBalance g x q) := by
  obtain ⟨t, h1, h2, h3, h4⟩ := token_found hh hs hc hx
  simp only [TWord.run, h1]
  unfold Host.ftGetBalance
  simp only [h2]
  exact ended_same hh hs (by simp only [Rep]; exact ⟨_, rfl, h4 q, rfl⟩)

theorem ended_stxBalance {q : Principal} (hh : g.host = Gen.put w s)
    (hs : StOk K w.contract s) (hc : CxOk c w wr) (hd : TWord.stxBalance.run [.principal q] c s ≠ .deviates) :
    Ended K w b g .uint (TWord.stxBalance.run [.principal q] c s) (Host.stxGetBalance g q) := by
  have hv : g.host.view = s.db := by rw [hh, view_put hc]
  simp only [TWord.run] at hd ⊢
  unfold Host.stxGetBalance
  rw [hv]
  by_cases h : s.db.stx q < 2 ^ 128
  · rw [if_pos h]
    exact ended_same hh hs (by simp only [Rep]; exact ⟨_, rfl, h, rfl⟩)
  · rw [if_neg h] at hd
    exact absurd rfl hd

/-! The host functions on arguments that can be read. -/

theorem host_stxBalance {so sl : BitVec 32} {x : Principal} (h2 : readPrin g.mem so sl = some x) :
    hostFn .stx_get_balance [.i32 so, .i32 sl] g = Host.stxGetBalance g x := by
  rw [show hostFn .stx_get_balance [.i32 so, .i32 sl] g =
      (orErr g (readPrin g.mem so sl) fun s => stxGetBalance g s) from rfl, h2]
  rfl

theorem host_stxTransfer {lo hi : BitVec 64} {so sl ro rl mo ml : BitVec 32} {x y : Principal} {memo : List Byte}
    {n : Nat} (h1 : amountOf lo hi = n) (h2 : readPrin g.mem so sl = some x) (h3 : readPrin g.mem ro rl = some y)
    (h4 : (if 0 < ml.toInt then memRead g.mem mo.toNat ml.toNat else some []) = some memo) :
    hostFn .stx_transfer [.i64 lo, .i64 hi, .i32 so, .i32 sl, .i32 ro, .i32 rl, .i32 mo, .i32 ml] g =
      Host.stxTransfer g n x y memo := by
  rw [show hostFn .stx_transfer [.i64 lo, .i64 hi, .i32 so, .i32 sl, .i32 ro, .i32 rl, .i32 mo, .i32 ml] g =
      (orErr g (readPrin g.mem so sl) fun s =>
      orErr g (readPrin g.mem ro rl) fun r =>
      orErr g (if 0 < ml.toInt then memRead g.mem mo.toNat ml.toNat else some []) fun memo =>
        stxTransfer g (amountOf lo hi) s r memo) from rfl, h1, h2, h3, h4]
  rfl

theorem host_stxBurn {lo hi : BitVec 64} {so sl : BitVec 32} {x : Principal}
    {n : Nat} (h1 : amountOf lo hi = n) (h2 : readPrin g.mem so sl = some x) :
    hostFn .stx_burn [.i64 lo, .i64 hi, .i32 so, .i32 sl] g = Host.stxBurn g n x := by
  rw [show hostFn .stx_burn [.i64 lo, .i64 hi, .i32 so, .i32 sl] g =
      (orErr g (readPrin g.mem so sl) fun s => stxBurn g (amountOf lo hi) s) from rfl, h1, h2]
  rfl

theorem host_ftMint {no nl : BitVec 32} {lo hi : BitVec 64} {so sl : BitVec 32} {t : Name} {x : Principal}
    {n : Nat} (h0 : readClarityName g.mem no nl = some t) (h1 : amountOf lo hi = n)
    (h2 : readPrin g.mem so sl = some x) :
    hostFn .ft_mint [.i32 no, .i32 nl, .i64 lo, .i64 hi, .i32 so, .i32 sl] g = Host.ftMint g t n x := by
  rw [show hostFn .ft_mint [.i32 no, .i32 nl, .i64 lo, .i64 hi, .i32 so, .i32 sl] g =
      (orErr g (readClarityName g.mem no nl) fun t =>
      orErr g (readPrin g.mem so sl) fun s => ftMint g t (amountOf lo hi) s) from rfl, h0, h1, h2]
  rfl

theorem host_ftBurn {no nl : BitVec 32} {lo hi : BitVec 64} {so sl : BitVec 32} {t : Name} {x : Principal}
    {n : Nat} (h0 : readClarityName g.mem no nl = some t) (h1 : amountOf lo hi = n)
    (h2 : readPrin g.mem so sl = some x) :
    hostFn .ft_burn [.i32 no, .i32 nl, .i64 lo, .i64 hi, .i32 so, .i32 sl] g = Host.ftBurn g t n x := by
  rw [show hostFn .ft_burn [.i32 no, .i32 nl, .i64 lo, .i64 hi, .i32 so, .i32 sl] g =
      (orErr g (readClarityName g.mem no nl) fun t =>
      orErr g (readPrin g.mem so sl) fun s => ftBurn g t (amountOf lo hi) s) from rfl, h0, h1, h2]
  rfl

theorem host_ftTransfer {no nl : BitVec 32} {lo hi : BitVec 64} {so sl ro rl : BitVec 32} {t : Name} {x y : Principal}
    {n : Nat} (h0 : readClarityName g.mem no nl = some t) (h1 : amountOf lo hi = n)
    (h2 : readPrin g.mem so sl = some x) (h3 : readPrin g.mem ro rl = some y) :
    hostFn .ft_transfer [.i32 no, .i32 nl, .i64 lo, .i64 hi, .i32 so, .i32 sl, .i32 ro, .i32 rl] g =
      Host.ftTransfer g t n x y := by
  rw [show hostFn .ft_transfer [.i32 no, .i32 nl, .i64 lo, .i64 hi, .i32 so, .i32 sl, .i32 ro, .i32 rl] g =
      (orErr g (readClarityName g.mem no nl) fun t =>
      orErr g (readPrin g.mem so sl) fun s =>
      orErr g (readPrin g.mem ro rl) fun r => ftTransfer g t (amountOf lo hi) s r) from rfl, h0, h1, h2, h3]
  rfl

theorem host_ftSupply {no nl : BitVec 32} {t : Name} (h0 : readIdent g.mem no nl = some t) :
    hostFn .ft_get_supply [.i32 no, .i32 nl] g = Host.ftGetSupply g t := by
  rw [show hostFn .ft_get_supply [.i32 no, .i32 nl] g =
      (orErr g (readIdent g.mem no nl) fun t => ftGetSupply g t) from rfl, h0]
  rfl

theorem host_ftBalance {no nl : BitVec 32} {so sl : BitVec 32} {t : Name} {x : Principal}
    (h0 : readClarityName g.mem no nl = some t) (h2 : readPrin g.mem so sl = some x) :
    hostFn .ft_get_balance [.i32 no, .i32 nl, .i32 so, .i32 sl] g = Host.ftGetBalance g t x := by
  rw [show hostFn .ft_get_balance [.i32 no, .i32 nl, .i32 so, .i32 sl] g =
      (orErr g (readClarityName g.mem no nl) fun t =>
      orErr g (readPrin g.mem so sl) fun s => ftGetBalance g t s) from rfl, h0, h2]
  rfl

theorem Ended.of {T : Ty} {o : Out Value} {r r' : HRes World} (h : r = r') (h' : Ended K w b g T o r') :
    Ended K w b g T o r := h ▸ h'

/-- The offset and length of the name of the token. -/
def tokenArgs (K : Ctx) : TWord → List Val
  | .stxTransfer | .stxMemo | .stxBurn | .stxBalance => []
  | .ftMint x | .ftBurn x | .ftTransfer x | .ftSupply x | .ftBalance x =>
    [.i32 (BitVec.ofNat 32 (K.off x)), .i32 (BitVec.ofNat 32 x.length)]

theorem steps_tokenPre {M : Wasm.Mod World} {st loc : List Val} {q : TWord} :
    Steps M (tokenPre K q) st loc g ((tokenArgs K q).reverse ++ st) loc g := by
  cases q <;> first | exact steps_addr | exact Steps.refl

/-- The host function of a word, on its arguments. -/
theorem ended_token {b' : Reg} {q : TWord} {Ts : List Ty} {T : Ty} {vs : List Value} {ws : List Val}
    (hh : g.host = Gen.put w s) (hs : StOk K w.contract s) (hc : CxOk c w wr) (hl : LitOk K g.mem b')
    (hb' : b'.hi ≤ g.mem.size) (hb : b.hi ≤ g.mem.size) (hsz : g.mem.size < 2 ^ 32)
    (ht : tokenTy K wr q Ts T) (hr : RepAll g.mem b Ts vs ws) (hd : q.run vs c s ≠ .deviates) :
    ∃ (f : HostFn) (post : List Val), ((tokenArgs K q ++ ws) ++ post).length = (hostSig f).1.length ∧
      (∀ (M : Wasm.Mod World) (st loc : List Val) (g1 : Store World), ∃ is, tokenPost q = is ++ [.call (.host f)] ∧
        Steps M is st loc g1 (post.reverse ++ st) loc g1) ∧
      Ended K w b g T (q.run vs c s) (hostFn f ((tokenArgs K q ++ ws) ++ post) g) := by
  cases q with
  | stxTransfer =>
    obtain ⟨-, rfl, rfl⟩ := ht
    obtain ⟨x1, r1, u1, t1, rfl, rfl, a1, x2, r2, u2, t2, rfl, rfl, a2, x3, r3, u3, t3, rfl, rfl, a3, rfl, rfl⟩ := hr
    obtain ⟨n, lo, hi, rfl, -, rfl, e1⟩ := rep_amount a1
    obtain ⟨x, o, l, rfl, rfl, e2⟩ := rep_prin hb a2
    obtain ⟨y, o', l', rfl, rfl, e3⟩ := rep_prin hb a3
    refine ⟨.stx_transfer, [.i32 0#32, .i32 0#32], rfl, fun _ _ _ _ =>
      ⟨[c32 0, c32 0], rfl, steps_c32.append steps_c32⟩, ?_⟩
    refine Ended.of (host_stxTransfer e1 e2 e3 rfl) ?_
    simp only [TWord.run] at hd ⊢
    exact ended_stxMove hh hs hc hd
  | stxMemo =>
    obtain ⟨-, ⟨m, hm, rfl⟩, rfl⟩ := ht
    obtain ⟨x1, r1, u1, t1, rfl, rfl, a1, x2, r2, u2, t2, rfl, rfl, a2, x3, r3, u3, t3, rfl, rfl, a3,
      x4, r4, u4, t4, rfl, rfl, a4, rfl, rfl⟩ := hr
    obtain ⟨n, lo, hi, rfl, -, rfl, e1⟩ := rep_amount a1
    obtain ⟨x, o, l, rfl, rfl, e2⟩ := rep_prin hb a2
    obtain ⟨y, o', l', rfl, rfl, e3⟩ := rep_prin hb a3
    obtain ⟨bs, o2, l2, rfl, rfl, e4⟩ := rep_memo hb hm a4
    refine ⟨.stx_transfer, [], rfl, fun _ _ _ _ => ⟨[], rfl, Steps.refl⟩, ?_⟩
    refine Ended.of (host_stxTransfer e1 e2 e3 e4) ?_
    simp only [TWord.run] at hd ⊢
    exact ended_stxMove hh hs hc hd
  | stxBurn =>
    obtain ⟨-, rfl, rfl⟩ := ht
    obtain ⟨x1, r1, u1, t1, rfl, rfl, a1, x2, r2, u2, t2, rfl, rfl, a2, rfl, rfl⟩ := hr
    obtain ⟨n, lo, hi, rfl, -, rfl, e1⟩ := rep_amount a1
    obtain ⟨x, o, l, rfl, rfl, e2⟩ := rep_prin hb a2
    refine ⟨.stx_burn, [], rfl, fun _ _ _ _ => ⟨[], rfl, Steps.refl⟩, ?_⟩
    refine Ended.of (host_stxBurn e1 e2) ?_
    exact ended_stxBurn hh hs hc hd
  | ftMint t =>
    obtain ⟨ht, -, rfl, rfl⟩ := ht
    obtain ⟨x1, r1, u1, t1, rfl, rfl, a1, x2, r2, u2, t2, rfl, rfl, a2, rfl, rfl⟩ := hr
    obtain ⟨n, lo, hi, rfl, -, rfl, e1⟩ := rep_amount a1
    obtain ⟨x, o, l, rfl, rfl, e2⟩ := rep_prin hb a2
    refine ⟨.ft_mint, [], rfl, fun _ _ _ _ => ⟨[], rfl, Steps.refl⟩, ?_⟩
    refine Ended.of (host_ftMint (read_name hl ht hb' hsz) e1 e2) ?_
    exact ended_ftMint hh hs hc ht hd
  | ftBurn t =>
    obtain ⟨ht, -, rfl, rfl⟩ := ht
    obtain ⟨x1, r1, u1, t1, rfl, rfl, a1, x2, r2, u2, t2, rfl, rfl, a2, rfl, rfl⟩ := hr
    obtain ⟨n, lo, hi, rfl, -, rfl, e1⟩ := rep_amount a1
    obtain ⟨x, o, l, rfl, rfl, e2⟩ := rep_prin hb a2
    refine ⟨.ft_burn, [], rfl, fun _ _ _ _ => ⟨[], rfl, Steps.refl⟩, ?_⟩
    refine Ended.of (host_ftBurn (read_name hl ht hb' hsz) e1 e2) ?_
    exact ended_ftBurn hh hs hc ht hd
  | ftTransfer t =>
    obtain ⟨ht, -, rfl, rfl⟩ := ht
    obtain ⟨x1, r1, u1, t1, rfl, rfl, a1, x2, r2, u2, t2, rfl, rfl, a2, x3, r3, u3, t3, rfl, rfl, a3, rfl, rfl⟩ := hr
    obtain ⟨n, lo, hi, rfl, -, rfl, e1⟩ := rep_amount a1
    obtain ⟨x, o, l, rfl, rfl, e2⟩ := rep_prin hb a2
    obtain ⟨y, o', l', rfl, rfl, e3⟩ := rep_prin hb a3
    refine ⟨.ft_transfer, [], rfl, fun _ _ _ _ => ⟨[], rfl, Steps.refl⟩, ?_⟩
    refine Ended.of (host_ftTransfer (read_name hl ht hb' hsz) e1 e2 e3) ?_
    exact ended_ftTransfer hh hs hc ht hd
  | ftSupply t =>
    obtain ⟨ht, rfl, rfl⟩ := ht
    obtain ⟨rfl, rfl⟩ := hr
    refine ⟨.ft_get_supply, [], rfl, fun _ _ _ _ => ⟨[], rfl, Steps.refl⟩, ?_⟩
    refine Ended.of (host_ftSupply (readIdent_lit hl ht.1 hb' hsz)) ?_
    exact ended_ftSupply hh hs hc ht
  | ftBalance t =>
    obtain ⟨ht, rfl, rfl⟩ := ht
    obtain ⟨x2, r2, u2, t2, rfl, rfl, a2, rfl, rfl⟩ := hr
    obtain ⟨x, o, l, rfl, rfl, e2⟩ := rep_prin hb a2
    refine ⟨.ft_get_balance, [], rfl, fun _ _ _ _ => ⟨[], rfl, Steps.refl⟩, ?_⟩
    refine Ended.of (host_ftBalance (read_name hl ht hb' hsz) e2) ?_
    exact ended_ftBalance hh hs hc ht
  | stxBalance =>
    obtain ⟨rfl, rfl⟩ := ht
    obtain ⟨x2, r2, u2, t2, rfl, rfl, a2, rfl, rfl⟩ := hr
    obtain ⟨x, o, l, rfl, rfl, e2⟩ := rep_prin hb a2
    refine ⟨.stx_get_balance, [], rfl, fun _ _ _ _ => ⟨[], rfl, Steps.refl⟩, ?_⟩
    exact Ended.of (host_stxBalance e2) (ended_stxBalance hh hs hc hd)

end

section
variable {p : P} {k : Nat} {call : FSem} {wr : Bool}

theorem good_token (hM : p.M.host = hostFn) {q : TWord} {es : Exprs} (hes : EsGood p k call wr es) :
    EGood p k call wr (.token q es) := by
  intro T er Δ Γ ρ n w c s d stk loc g ht ok
  simp only [wt] at ht
  simp only [compile] at ok
  simp only [compile, eval, List.append_assoc]
  generalize hA : compileArgs p.K p.R es d Γ n = A at *
  refine Does.steps0 steps_tokenPre Fr.refl (Nat.le_refl _) ?_
  rw [← Nat.add_zero A.al] at ok ⊢
  rw [← Nat.add_zero A.ls.length] at ok
  refine hes.then ht.1 hA ok ?_
  intro vs s' ws loc' g' _ hf ok' hq
  have hsm := ok'.inv.small
  by_cases hd : q.run vs c s' = .deviates
  · rw [hd]; exact fun h => absurd rfl h
  obtain ⟨f, post, h1, h2, v, s2, us, h3, h4, h5, h6⟩ := ended_token ok'.inv.host ok'.inv.st ok'.cx ok'.inv.lits
    ok'.inv.sp_le ok'.inv.sp_le (by omega) ht.2 hq hd
  rw [h3]
  obtain ⟨is, e1, e2⟩ := h2 p.M (ws.reverse ++ ((tokenArgs p.K q).reverse ++ stk)) loc' g'
  rw [e1]
  refine Does.ends (e2.append ?_) Fr.withHost rfl h5 h6
  have := steps_host (stk := stk) (loc := loc') hM h1 h4
  simp only [List.reverse_append, List.append_assoc] at this
  exact this
end

end Gen
