import Verif.Proofs.SoundStmt
/-
Soundness of the declaration parser, and of the whole front end.
-/
namespace Blang
open Spec

theorem parseIval_sound {s s' : PS} {v : Const} (h : parseIvalConst s = .ok v s') :
    ∃ ts i, IGram true ts i ∧ genIval i s.c = .ok v s'.c ∧
      ((∀ lay r, Layout lay → s'.lex.chars = lay ++ '-' :: r → False) → Eats s ts s') := by
  unfold parseIvalConst at h
  obind h ch s1 h1
  obtain ⟨a1, a2, a3⟩ := re_ok h1
  replace h := ite_ok h
  rcases h with ⟨_, h⟩ | ⟨n1, h⟩
  · obind h _u s2 h2
    obind h nm s3 h3
    cases h
  replace h := ite_ok h
  rcases h with ⟨rfl, h⟩ | ⟨n2, h⟩
  · obind h w s2 h2
    simp at h; obtain ⟨rfl, rfl⟩ := h
    obtain ⟨vs, k1, k2, k3⟩ := chr_eats a3 a2 (lx_orMsg h2)
    exact ⟨_, _, .chr, by simp only [genIval]; rw [k3, a1, k2]; rfl, fun _ => k1⟩
  replace h := ite_ok h
  rcases h with ⟨rfl, h⟩ | ⟨n3, h⟩
  · obind h str s3 h3
    obtain ⟨k1, k2⟩ := lx_ok h3
    obtain ⟨ts, vs, k3, k5, k6, k7⟩ := stringLit_ok k1
    obind h g s4 h4
    obtain ⟨b1, b2⟩ := bd_ok h4
    simp at h; obtain ⟨rfl, rfl⟩ := h
    refine ⟨[.str vs], .str vs, .str, ?_, fun _ => ⟨?_, by rw [b2, k6, a2]⟩⟩
    · simp only [genIval]
      rw [k2, a1, k7] at b1
      rw [M.bind_ok b1]; rfl
    · rw [a3, k5, b2]; exact .one (.str k3)
  replace h := ite_ok h
  rcases h with ⟨rfl, h⟩ | ⟨n4, h⟩
  · obind h w s2 h2
    simp at h; obtain ⟨rfl, rfl⟩ := h
    obtain ⟨ds, d1, d2, d3, d4, d5, d6, lay, d7, d8, d9⟩ := num_ok (lx_orMsg h2)
    have hlay0 : s1.lex.chars.head? = some '-' → lay = [] := by
      intro hh
      cases hs : s1.lex.chars with
      | nil => rw [hs] at hh; cases hh
      | cons c r =>
        rw [hs] at hh; simp at hh; subst hh
        exact layout_solid d8 (d7.symm.trans hs) (by decide) (by decide)
    by_cases hne : ds = []
    · obtain ⟨e1, e2⟩ := d6 hne
      refine ⟨[.sym ['-']], .int 0, .negNone rfl, ?_, fun hno => ?_⟩
      · simp only [genIval]; rw [d1, a1, e2]; rfl
      · refine ((eats_sym (x := ['-']) (by simp [symbols]) a3 (munch_one ext_sub ?_) a2).trans e1).cast (by simp)
        intro hh
        have := hlay0 hh
        subst this hne
        simp at d7
        rw [d7] at hh
        cases hs : s2.lex.chars with
        | nil => rw [hs] at hh; cases hh
        | cons c r =>
          rw [hs] at hh; simp at hh; subst hh
          exact hno [] r .nil hs
    · refine ⟨[.sym ['-'], .num ds], _, .neg, ?_, fun _ => ?_⟩
      · simp only [genIval]; rw [d1, a1, d2]; rfl
      · refine ((eats_sym (x := ['-']) (by simp [symbols]) a3 (munch_one ext_sub ?_) a2).trans (d5 hne)).cast (by simp)
        intro hh
        have := hlay0 hh
        subst this
        cases ds with
        | nil => exact hne rfl
        | cons d ds =>
          rw [d7] at hh; simp at hh; subst hh
          exact absurd (d4 '-' (by simp)) (by decide)
  · obind h _u s2 h2
    obtain ⟨u1, u2, u3⟩ := un_ok h2
    have : s2 = s := ps_ext (by rw [u3, a3]) (by rw [u2, a2]) (by rw [u1, a1])
    subst this
    obind h w s3 h3
    simp at h; obtain ⟨rfl, rfl⟩ := h
    obtain ⟨ds, d1, d2, d3, d4, d5, d6, lay, d7, d8, d9⟩ := num_ok (lx_orMsg h3)
    by_cases hne : ds = []
    · obtain ⟨e1, e2⟩ := d6 hne
      exact ⟨[], .int 0, .none rfl, by simp only [genIval]; rw [d1, e2]; rfl, fun _ => e1⟩
    · exact ⟨[.num ds], _, .num, by simp only [genIval]; rw [d1, d2]; rfl, fun _ => d5 hne⟩

/-- a symbol other than `-` follows -/
theorem no_minus {s t : PS} {c : Char} {r : List Char} (w1 : Eats s [] t) (ht : t.lex.chars = c :: r) (hc : c ≠ '-')
    (w3 : Stops t.lex.chars s.lex.tail) :
    ∀ lay r, Layout lay → s.lex.chars = lay ++ '-' :: r → False := by
  intro lay r' hl hs
  have hst : Stops ('-' :: r') s.lex.tail := by
    refine ⟨startsSolid_cons.2 ⟨by decide, by rintro ⟨h, _⟩; exact absurd h (by decide)⟩, fun _ => ⟨by simp, by simp⟩⟩
  obtain ⟨lay2, h1, h2⟩ := tokSeq_nil w1.1
  have e1 := whitespace_layout hl hst
  have e2 := whitespace_layout h2 w3
  rw [← hs] at e1
  rw [← h1, e1] at e2
  cases e2' : t.lex.chars
  · rw [e2'] at ht; cases ht
  · rw [e2'] at e2 ht; cases ht; simp at e2; exact hc e2.1.symm

theorem ivals_sound {n : Nat} {acc all : List Const} {s s' : PS} (h : loop n ivalBody acc s = .ok all s') :
    ∃ ts vs cs, IsGram true ts vs ∧ Eats s ts s' ∧ genIvals vs s.c = .ok cs s'.c ∧ all = acc ++ cs ∧ cs ≠ [] := by
  induction n generalizing acc s with
  | zero => cases h
  | succ n ih =>
    rw [loop_succ] at h
    cases hb : ivalBody acc s with
    | err e => rw [hb] at h; cases h
    | ok it t =>
      rw [hb] at h
      unfold ivalBody at hb
      obind hb _u s1 h1
      obtain ⟨w1, w2, w3⟩ := ws_ok h1
      obind hb v s2 h2
      obtain ⟨us, i, i1, i2, i3⟩ := parseIval_sound h2
      obind hb _u s3 h3
      obtain ⟨w4, w5, w6⟩ := ws_ok h3
      obind hb ch s4 h4
      obtain ⟨a1, a2, a3⟩ := re_ok h4
      rw [w2] at i2
      replace hb := ite_ok hb
      rcases hb with ⟨rfl, hb⟩ | ⟨n4, hb⟩
      · simp at hb; obtain ⟨rfl, rfl⟩ := hb
        simp at h; obtain ⟨rfl, rfl⟩ := h
        have q2 : Eats s3 [.sym [';']] s4 := eats_sym1 (by simp [symbols]) a3 rfl a2
        have i4 := i3 (no_minus w4 a3 (by decide) w6)
        refine ⟨_, [i], [v], .last i1, (((w1.trans i4).trans w4).trans q2).cast (by simp), ?_, rfl, by simp⟩
        simp only [genIvals]
        rw [M.bind_ok i2, a1, w5]; rfl
      · replace hb := ite_ok hb
        rcases hb with ⟨_, hb⟩ | ⟨n5, hb⟩
        · cases hb
        simp at n5; subst n5
        simp at hb; obtain ⟨rfl, rfl⟩ := hb
        have q2 : Eats s3 [.sym [',']] s4 := eats_sym1 (by simp [symbols]) a3 rfl a2
        have i4 := i3 (no_minus w4 a3 (by decide) w6)
        obtain ⟨ts, vs, cs, j1, j2, j3, j4, j5⟩ := ih h
        refine ⟨_, i :: vs, v :: cs, .cons i1 j1, ((((w1.trans i4).trans w4).trans q2).trans j2).cast (by simp), ?_,
          by rw [j4]; simp, by simp⟩
        simp only [genIvals]
        rw [a1, w5] at j3
        rw [M.bind_ok i2, M.bind_ok j3]; rfl

/-- a declaration: what comes after the name -/
def PostD (s0 : PS) (s' : PS) : Prop :=
  ∃ ts d, DeclGram prec true ts d ∧ Eats s0 ts s' ∧ genDecl d s0.c = .ok () s'.c

theorem parseGlobal_sound {n : Nat} {s0 s s' : PS} {name : Name} (h0 : Eats s0 [.defn name] s) (hc : s.c = s0.c)
    (h : parseGlobal n name s = .ok () s') : PostD s0 s' := by
  unfold parseGlobal at h
  obind h _u s1 h1
  obtain ⟨a1, b1⟩ := bd_ok h1
  obind h ch s2 h2
  obtain ⟨a2, a3, a4⟩ := re_ok h2
  rw [hc] at a1
  replace h := ite_ok h
  rcases h with ⟨n1, h⟩ | ⟨n1, h⟩
  · obind h _u3 s3 h3
    obtain ⟨u1, u2, u3⟩ := un_ok h3
    have : s3 = s1 := ps_ext (by rw [u3, a4]) (by rw [u2, a3]) (by rw [u1, a2])
    subst this
    obind h vals s4 h4
    obtain ⟨ts, vs, cs, j1, j2, j3, j4, j5⟩ := ivals_sound h4
    simp at j4; subst j4
    have hb : bd (declareVals name vals) s4 = .ok () s' := by
      cases vals with
      | nil => exact absurd rfl j5
      | cons v vals =>
        cases vals with
        | nil => exact h
        | cons w vals => exact h
    obtain ⟨a5, b5⟩ := bd_ok hb
    refine ⟨_, .global name vs, .global (.some j1), (((h0.trans (Eats.bd b1)).trans j2).trans (Eats.bd b5)).cast (by simp), ?_⟩
    simp only [genDecl]
    rw [M.bind_ok a1, M.bind_ok j3, a5]
  · simp at n1; subst n1
    obtain ⟨a5, b5⟩ := bd_ok h
    have q2 : Eats s1 [.sym [';']] s2 := eats_sym1 (by simp [symbols]) a4 rfl a3
    refine ⟨_, .global name [], .global .none, (((h0.trans (Eats.bd b1)).trans q2).trans (Eats.bd b5)).cast (by simp), ?_⟩
    simp only [genDecl, genIvals]
    rw [a2] at a5
    rw [M.bind_ok a1, M.bind_ok (M.pure_apply _ _)]; exact a5

theorem vectorSize_sound {s s' : PS} {w : W} (h : lx vectorSize s = .ok w s') :
    ∃ ts, VGram ts w ∧ Eats s ts s' ∧ s'.c = s.c := by
  unfold vectorSize at h
  olx h _u s1 h1
  obtain ⟨w1, w2, w3⟩ := ws_ok h1
  olx h ch s2 h2
  obtain ⟨a1, a2, a3⟩ := re_ok h2
  replace h := lx_ite h
  rcases h with ⟨n1, h⟩ | ⟨n1, h⟩
  · olx h _u3 s3 h3
    obtain ⟨u1, u2, u3⟩ := un_ok h3
    have : s3 = s1 := ps_ext (by rw [u3, a3]) (by rw [u2, a2]) (by rw [u1, a1])
    subst this
    olx h nw s4 h4
    olx h _u5 s5 h5
    obtain ⟨w4, w5, w6⟩ := ws_ok h5
    olx h _u6 s6 h6
    obtain ⟨e1, e2⟩ := exp_eats (by simp [symbols]) rfl h6
    obtain ⟨rfl, rfl⟩ := lx_pure h
    obtain ⟨ds, d1, d2, d3⟩ := num_then (by rw [w1.2]; exact w3) a3 n1 (lx_orMsg h4) h5 h6
    refine ⟨_, by rw [d2]; exact .num, (((w1.trans d1).trans w4).trans e1).cast (by simp), by rw [e2, w5, d3, w2]⟩
  · simp at n1; subst n1
    obtain ⟨rfl, rfl⟩ := lx_pure h
    exact ⟨_, .none, (w1.trans (eats_sym1 (by simp [symbols]) a3 rfl a2)).cast (by simp), by rw [a1, w2]⟩

theorem parseVector_sound {n : Nat} {s0 s s' : PS} {name : Name} (h0 : Eats s0 [.defn name, .sym ['[']] s) (hc : s.c = s0.c)
    (h : parseVector n name s = .ok () s') : PostD s0 s' := by
  unfold parseVector at h
  obind h _u s1 h1
  obtain ⟨a1, b1⟩ := bd_ok h1
  obind h nw s2 h2
  obtain ⟨ts, v1, v2, v3⟩ := vectorSize_sound h2
  obind h _u3 s3 h3
  obtain ⟨w1, w2, w3⟩ := ws_ok h3
  obind h ch s4 h4
  obtain ⟨a2, a3, a4⟩ := re_ok h4
  obind h vals s5 h5
  obtain ⟨a6, b6⟩ := bd_ok h
  rw [hc] at a1
  have q0 : Eats s0 (.defn name :: .sym ['['] :: ts) s3 :=
    (((h0.trans (Eats.bd b1)).trans v2).trans w1).cast (by simp)
  unfold vectorInit at h5
  replace h5 := ite_ok h5
  rcases h5 with ⟨n1, h5⟩ | ⟨n1, h5⟩
  · obind h5 _u6 s6 h6
    obtain ⟨u1, u2, u3⟩ := un_ok h6
    have : s6 = s3 := ps_ext (by rw [u3, a4]) (by rw [u2, a3]) (by rw [u1, a2])
    subst this
    obtain ⟨us, vs, cs, j1, j2, j3, j4, j5⟩ := ivals_sound h5
    simp at j4; subst j4
    refine ⟨_, .vector name nw vs, .vector v1 (.some j1), ((q0.trans j2).trans (Eats.bd b6)).cast (by simp), ?_⟩
    simp only [genDecl]
    rw [w2, v3] at j3
    rw [M.bind_ok a1, M.bind_ok j3]; exact a6
  · simp at n1; subst n1
    simp at h5; obtain ⟨rfl, rfl⟩ := h5
    have q2 : Eats s3 [.sym [';']] s4 := eats_sym1 (by simp [symbols]) a4 rfl a3
    refine ⟨_, .vector name nw [], .vector v1 .none, ((q0.trans q2).trans (Eats.bd b6)).cast (by simp), ?_⟩
    simp only [genDecl, genIvals]
    rw [a2, w2, v3] at a6
    rw [M.bind_ok a1, M.bind_ok (M.pure_apply _ _)]; exact a6

theorem params_sound {n : Nat} {acc all : List Name} {s s' : PS} (h : lx (loop n paramBody acc) s = .ok all s') :
    ∃ ts xs, NsGram [')'] ts xs ∧ Eats s ts s' ∧ s'.c = s.c ∧ all = acc ++ xs := by
  induction n generalizing acc s with
  | zero => obtain ⟨h, _⟩ := lx_ok h; cases h
  | succ n ih =>
    unfold loop at h
    olx h it t hb
    unfold paramBody at hb
    olx hb _u s1 h1
    obtain ⟨w1, w2, w3⟩ := ws_ok h1
    olx hb name s2 h2
    obtain ⟨i1, i2, i3⟩ := identOr_ok h2
    olx hb _u3 s3 h3
    obtain ⟨w4, w5, w6⟩ := ws_ok h3
    olx hb ch s4 h4
    obtain ⟨a1, a2, a3⟩ := re_ok h4
    have he : Eats s [.word name] s3 := ((w1.trans i1).trans w4).cast (by simp)
    have hcc : s4.c = s.c := by rw [a1, w5, i2, w2]
    replace hb := lx_ite hb
    rcases hb with ⟨rfl, hb⟩ | ⟨n4, hb⟩
    · obtain ⟨rfl, rfl⟩ := lx_pure hb
      obtain ⟨rfl, rfl⟩ := lx_pure h
      have q2 : Eats s3 [.sym [')']] s' := eats_sym1 (by simp [symbols]) a3 rfl a2
      exact ⟨_, [name], .last, he.trans q2, hcc, rfl⟩
    · replace hb := lx_ite hb
      rcases hb with ⟨rfl, hb⟩ | ⟨n5, hb⟩
      · obtain ⟨rfl, rfl⟩ := lx_pure hb
        have q2 : Eats s3 [.sym [',']] t := eats_sym1 (by simp [symbols]) a3 rfl a2
        obtain ⟨ts, xs, j1, j2, j3, j4⟩ := ih h
        exact ⟨_, name :: xs, .cons j1, ((he.trans q2).trans j2).cast (by simp), by rw [j3, hcc], by rw [j4]; simp⟩
      · obtain ⟨hb, _⟩ := lx_ok hb; cases hb

theorem parseFunction_sound {n : Nat} {s0 s s' : PS} {name : Name} (h0 : Eats s0 [.defn name, .sym ['(']] s) (hc : s.c = s0.c)
    (h : parseFunction n name s = .ok () s') : PostD s0 s' := by
  unfold parseFunction at h
  obind h ch s1 h1
  obtain ⟨a2, a3, a4⟩ := re_ok h1
  obind h params s2 h2
  obind h fn s3 h3
  obind h _u4 s4 h4
  obind h cs s5 h5
  obtain ⟨a6, b6⟩ := bd_ok h3
  obtain ⟨a7, b7⟩ := bd_ok h4
  obtain ⟨us, st, g1, g2, g3, g4⟩ := parseStmt_sound n _ _ _ _ _ h5
  obtain ⟨a8, b8⟩ := bd_ok h
  have hp : ∃ ts, PGram ts params ∧ Eats s ts s2 ∧ s2.c = s.c := by
    unfold paramList at h2
    replace h2 := lx_ite h2
    rcases h2 with ⟨n1, h2⟩ | ⟨n1, h2⟩
    · olx h2 _u6 s6 h6
      obtain ⟨u1, u2, u3⟩ := un_ok h6
      have : s6 = s := ps_ext (by rw [u3, a4]) (by rw [u2, a3]) (by rw [u1, a2])
      subst this
      obtain ⟨ts, xs, j1, j2, j3, j4⟩ := params_sound h2
      simp at j4; subst j4
      exact ⟨_, .some j1, j2, j3⟩
    · simp at n1; subst n1
      obtain ⟨rfl, rfl⟩ := lx_pure h2
      exact ⟨_, .none, eats_sym1 (by simp [symbols]) a4 rfl a3, a2⟩
  obtain ⟨ts, p1, p2, p3⟩ := hp
  have q : Eats s2 [] s4 := Eats.bd (by rw [b7, b6])
  refine ⟨_, .func name params st, .func p1 g1, ((((h0.trans p2).trans q).trans g2).trans (Eats.bd b8)).cast (by simp), ?_⟩
  simp only [genDecl]
  rw [p3, hc] at a6
  rw [M.bind_ok a6, M.bind_ok a7, M.bind_ok g3, a8]

/-- a word in the place of a defined name -/
theorem defn_eats {s s' : PS} {x : Name} (h : Eats s [.word x] s') : Eats s [.defn x] s' := by
  obtain ⟨h1, h2⟩ := h
  refine ⟨?_, h2⟩
  revert h1
  generalize s.lex.chars = a, s'.lex.chars = b
  intro h1
  cases h1 with
  | cons hl hx hr =>
    cases hx with
    | word k1 k2 k3 => exact .cons hl (.defn k1 k2 k3) hr

theorem declBody_sound {n : Nat} {s s' : PS} {it : Iter Unit Unit} (h : declBody n () s = .ok it s') :
    match it with
    | .next _ => ∃ ts d s1, DeclGram prec true ts d ∧ Eats s ts s' ∧ genDecl d s.c = .ok () s1 ∧
        clearTopLevelContext s1 = .ok () s'.c
    | .done _ => Eats s [] s' ∧ s'.lex.chars = [] ∧ s.lex.tail = .eof ∧ s'.c = s.c := by
  unfold declBody at h
  obind h name s1 h1
  obtain ⟨a1, a2, a3, a4, a5, a6, _⟩ := id_ok h1
  replace h := ite_ok h
  rcases h with ⟨hne, h⟩ | ⟨hne, h⟩
  · have he := a6 hne
    obind h r s2 hr
    obtain ⟨r1, r2, r3⟩ := rd_ok hr
    rcases r3 with ⟨c, rfl, r3⟩ | ⟨rfl, r3, r4, r5⟩ | ⟨rfl, r3, r4, r5⟩
    · cases h
    · simp at h; obtain ⟨rfl, rfl⟩ := h
      have : s2 = s1 := ps_ext (by rw [r5, r3]) r2 r1
      subst this
      exact ⟨he, r5, by rw [← he.2]; exact r4, a1⟩
    · cases h
  · have he : Eats s [.defn name] s1 := defn_eats (a5 hne)
    obind h r s2 hr
    obtain ⟨r1, r2, r3⟩ := rd_ok hr
    rcases r3 with ⟨c, rfl, r3⟩ | ⟨rfl, r3, r4, r5⟩ | ⟨rfl, r3, r4, r5⟩
    · dsimp only at h
      obind h _u s3 h3
      obind h _u4 s4 h4
      obtain ⟨a7, b7⟩ := bd_ok h4
      simp at h; obtain ⟨rfl, rfl⟩ := h
      have hD : PostD s s3 := by
        unfold parseDecl at h3
        replace h3 := ite_ok h3
        rcases h3 with ⟨rfl, h3⟩ | ⟨n1, h3⟩
        · have q : Eats s1 [.sym ['(']] s2 := eats_sym1 (by simp [symbols]) r3 rfl r2
          exact parseFunction_sound (he.trans q) (by rw [r1, a1]) h3
        replace h3 := ite_ok h3
        rcases h3 with ⟨rfl, h3⟩ | ⟨n2, h3⟩
        · have q : Eats s1 [.sym ['[']] s2 := eats_sym1 (by simp [symbols]) r3 rfl r2
          exact parseVector_sound (he.trans q) (by rw [r1, a1]) h3
        · obind h3 _u5 s5 h5
          have := rd_un hr h5; subst this
          exact parseGlobal_sound he a1 h3
      obtain ⟨ts, d, g1, g2, g3⟩ := hD
      exact ⟨ts, d, s3.c, g1, (g2.trans (Eats.bd b7)).cast (by simp), g3, a7⟩
    · cases h
    · cases h

theorem parseDeclarations_sound {m n : Nat} {s s' : PS} (h : loop m (declBody n) () s = .ok () s') :
    ∃ ts p, ProgGram prec true ts p ∧ TokSeq true s.lex.chars ts [] ∧ s.lex.tail = .eof ∧ genProg p s.c = .ok () s'.c := by
  induction m generalizing s with
  | zero => cases h
  | succ m ih =>
    rw [loop_succ] at h
    cases hb : declBody n () s with
    | err e => rw [hb] at h; cases h
    | ok it t =>
      rw [hb] at h
      have hb := declBody_sound hb
      cases it with
      | done r =>
        simp at h; subst h
        obtain ⟨h1, h2, h3, h4⟩ := hb
        refine ⟨[], [], .nil, ?_, h3, by rw [h4]; rfl⟩
        rw [← h2]; exact h1.1
      | next b =>
        obtain ⟨ts, d, c1, h1, h2, h3, h4⟩ := hb
        obtain ⟨us, p, j1, j2, j3, j4⟩ := ih h
        refine ⟨ts ++ us, d :: p, .cons h1 j1, h2.1.append j2, by rw [← h2.2]; exact j3, ?_⟩
        simp only [genProg]
        rw [M.bind_ok h3, M.bind_ok h4, j4]

/-- **Soundness of the front end.** An accepted text is a program of the grammar, was read to its
end, and the module is the one generated from its tree. -/
theorem compileText_sound {chars : List Char} {t : Tail} {m : Module} (h : compileText chars t = .ok m) :
    ∃ p c, Reads true chars p ∧ t = .eof ∧ genProg p newCompiler = .ok () c ∧ m = ⟨c.globals, c.funcs⟩ := by
  unfold compileText at h
  cases hp : parseDeclarations (fuelFor chars.length) ⟨⟨chars, t⟩, newCompiler⟩ with
  | err e => rw [hp] at h; cases h
  | ok u s =>
    rw [hp] at h
    simp at h
    obtain ⟨ts, p, h1, h2, h3, h4⟩ := parseDeclarations_sound hp
    exact ⟨p, s.c, ⟨ts, h2, h1⟩, h3, h4, h.symm⟩

end Blang
