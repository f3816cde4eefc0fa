import Verif.Props.Wire
import Verif.Spec.Read

/-! # Exactly which text the parsers accept -/

namespace Cesride

/-- The encoder's output is text of the data bits, filled up with zero bits, and pad characters. -/
theorem b64Encode_pads (v : List UInt8) : ∃ B pads, b64Encode v = B ++ List.replicate pads (ch '=') ∧ Spec.IsB64Text B ∧ pads ≤ 2 ∧
    (v.length + pads) % 3 = 0 ∧ Spec.textBits B = Spec.bytesBits v ++ List.replicate (2 * pads) 0 := by
  induction v using b64Encode.induct with
  | case1 => exact ⟨[], 0, rfl, fun c hc => by simp at hc, by omega, by simp, rfl⟩
  | case2 a =>
    have ha := a.toNat_lt
    refine ⟨encD [a.toNat / 4, a.toNat % 4 * 16], 2, ?_, ?_, by omega, by simp, ?_⟩
    · simp only [b64Encode, encD, List.map_cons, List.map_nil, List.replicate, List.cons_append, List.nil_append]
      rw [show a.toNat * 65536 / 262144 % 64 = a.toNat / 4 by omega, show a.toNat * 65536 / 4096 % 64 = a.toNat % 4 * 16 by omega]
    · exact (isB64Text_iff _).mpr (encD_isB64 (by intro x hx; simp at hx; omega))
    · rw [textBits_encD (by intro x hx; simp at hx; omega)]
      simp only [List.flatMap_cons, List.flatMap_nil, digitBits, Spec.bytesBits, Spec.byteBits, List.replicate, List.cons_append, List.nil_append,
        List.append_nil, List.cons.injEq, and_true]
      refine ⟨?_, ?_, ?_, ?_, ?_, ?_, ?_, ?_, ?_, ?_, ?_, ?_⟩ <;> first | trivial | omega
  | case3 a b =>
    have ha := a.toNat_lt
    have hb := b.toNat_lt
    refine ⟨encD [a.toNat / 4, a.toNat % 4 * 16 + b.toNat / 16, b.toNat % 16 * 4], 1, ?_, ?_, by omega, by simp, ?_⟩
    · simp only [b64Encode, encD, List.map_cons, List.map_nil, List.replicate, List.cons_append, List.nil_append]
      rw [show (a.toNat * 65536 + b.toNat * 256) / 262144 % 64 = a.toNat / 4 by omega,
        show (a.toNat * 65536 + b.toNat * 256) / 4096 % 64 = a.toNat % 4 * 16 + b.toNat / 16 by omega,
        show (a.toNat * 65536 + b.toNat * 256) / 64 % 64 = b.toNat % 16 * 4 by omega]
    · exact (isB64Text_iff _).mpr (encD_isB64 (by intro x hx; simp at hx; omega))
    · rw [textBits_encD (by intro x hx; simp at hx; omega)]
      simp only [List.flatMap_cons, List.flatMap_nil, digitBits, Spec.bytesBits, Spec.byteBits, List.replicate, List.cons_append, List.nil_append,
        List.append_nil, List.cons.injEq, and_true]
      refine ⟨?_, ?_, ?_, ?_, ?_, ?_, ?_, ?_, ?_, ?_, ?_, ?_, ?_, ?_, ?_, ?_, ?_, ?_⟩ <;> first | trivial | omega
  | case4 a b c rest ih =>
    obtain ⟨B, pads, h1, h2, h3, h4, h5⟩ := ih
    have e := b64Encode_eq (l := [a, b, c]) (by simp)
    have e' : b64Encode (a :: b :: c :: rest) = encD (sextets [a, b, c]) ++ b64Encode rest := by
      rw [← e]; simp [b64Encode]
    refine ⟨encD (sextets [a, b, c]) ++ B, pads, by rw [e', h1]; simp, ?_, h3, by simp; omega, ?_⟩
    · intro x hx
      rcases List.mem_append.mp hx with hx | hx
      · exact (isDecoding_sextets (l := [a, b, c]) (by simp)).1 x hx
      · exact h2 x hx
    · have a1 : ∀ u v, Spec.textBits (u ++ v) = Spec.textBits u ++ Spec.textBits v := by intro u v; simp [Spec.textBits]
      have a2 : Spec.bytesBits (a :: b :: c :: rest) = Spec.bytesBits [a, b, c] ++ Spec.bytesBits rest := by simp [Spec.bytesBits]
      rw [a1, a2, h5, (isDecoding_sextets (l := [a, b, c]) (by simp)).2, List.append_assoc]

/-- The decoder reads what the encoder writes, for every length. -/
theorem decode_encode (v : List UInt8) : b64DecodeOpt (b64Encode v) = some v := by
  induction v using b64Encode.induct with
  | case1 => rfl
  | case2 a =>
    have ha := a.toNat_lt
    simp only [b64Encode]
    rw [decode_last]
    unfold decodeLastQuad
    rw [if_pos rfl, if_pos rfl, sextetVal_char (by omega), sextetVal_char (by omega)]
    simp only
    rw [if_pos (by omega)]
    congr 2
    apply UInt8.toNat_inj.mp
    simp; omega
  | case3 a b =>
    have ha := a.toNat_lt
    have hb := b.toNat_lt
    simp only [b64Encode]
    rw [decode_last]
    unfold decodeLastQuad
    rw [if_pos rfl, if_neg (isB64_ne_pad _ (sextetChar_isB64 _ (by omega))), sextetVal_char (by omega), sextetVal_char (by omega), sextetVal_char (by omega)]
    simp only
    rw [if_pos (by omega)]
    congr 2
    · apply UInt8.toNat_inj.mp
      simp; omega
    · congr 1
      apply UInt8.toNat_inj.mp
      simp; omega
  | case4 a b c rest ih =>
    have e := b64Encode_eq (l := [a, b, c]) (by simp)
    have e' : b64Encode (a :: b :: c :: rest) = b64Encode [a, b, c] ++ b64Encode rest := by
      simp [b64Encode]
    cases rest with
    | nil => rw [e]; exact decode_encD_sextets (by simp)
    | cons x xs =>
      have hd := decode_encD_sextets (l := [a, b, c]) (by simp)
      rw [← e] at hd
      simp only [b64Encode] at hd
      rw [decode_last] at hd
      obtain ⟨u, w, huw⟩ : ∃ u w, b64Encode (x :: xs) = u :: w := by
        cases hbe : b64Encode (x :: xs) with
        | nil => have := b64Encode_length (x :: xs); rw [hbe] at this; simp at this; omega
        | cons u w => exact ⟨u, w, rfl⟩
      simp only [b64Encode]
      rw [huw] at ih ⊢
      rw [decode_cons, ih]
      rw [decodeLastQuad_of_ne (isB64_ne_pad _ (sextetChar_isB64 _ (by omega)))] at hd
      rw [hd]
      rfl

theorem textBits_append (u v : Str) : Spec.textBits (u ++ v) = Spec.textBits u ++ Spec.textBits v := by simp [Spec.textBits]

theorem textBits_As (n : Nat) : Spec.textBits (List.replicate n (ch 'A')) = List.replicate (6 * n) 0 := by
  induction n with
  | zero => rfl
  | succ n ih =>
    rw [List.replicate_succ, Spec.textBits, List.flatMap_cons, ← Spec.textBits, ih, show 6 * (n + 1) = 6 + 6 * n by omega,
      ← List.replicate_append_replicate]
    congr 1

/-- What the decoder accepts after the leading `A`s that the parsers put before the material, in terms of bits. -/
theorem decode_padded (ps ls : Nat) (raw : List UInt8) (mat : Str) :
    b64DecodeOpt (List.replicate ps (ch 'A') ++ mat) = some (List.replicate (ps + ls) 0 ++ raw) ↔
      ∃ pads body, mat = body ++ List.replicate pads (ch '=') ∧ Spec.IsB64Text body ∧ pads ≤ 2 ∧ (ps + ls + raw.length + pads) % 3 = 0 ∧
        Spec.textBits body = List.replicate (2 * ps + 8 * ls) 0 ++ Spec.bytesBits raw ++ List.replicate (2 * pads) 0 := by
  obtain ⟨B, p, h1, h2, h3, h4, h5⟩ := b64Encode_pads (List.replicate (ps + ls) 0 ++ raw)
  have a2 : Spec.bytesBits (List.replicate (ps + ls) 0 ++ raw) = List.replicate (6 * ps) 0 ++ (List.replicate (2 * ps + 8 * ls) 0 ++ Spec.bytesBits raw) := by
    rw [← List.append_assoc, List.replicate_append_replicate, show 6 * ps + (2 * ps + 8 * ls) = 8 * (ps + ls) by omega, ← bytesBits_zeros]
    simp [Spec.bytesBits]
  rw [a2] at h5
  simp only [List.length_append, List.length_replicate] at h4
  constructor
  · intro h
    have e := decode_canonical h
    rw [h1] at e
    have : ∃ b, B = List.replicate ps (ch 'A') ++ b ∧ mat = b ++ List.replicate p (ch '=') := by
      rcases List.append_eq_append_iff.mp e with ⟨c, e1, e2⟩ | ⟨c, e1, e2⟩
      · have hc : c = [] := by
          cases c with
          | nil => rfl
          | cons x xs =>
            have g1 : x = ch 'A' := List.eq_of_mem_replicate (n := ps) (by rw [e1]; simp)
            have g2 : x = ch '=' := List.eq_of_mem_replicate (n := p) (by rw [e2]; simp)
            rw [g1] at g2
            exact absurd g2 (by decide)
        subst hc
        exact ⟨[], by rw [e1]; simp, by rw [e2]; simp⟩
      · exact ⟨c, e1, e2⟩
    obtain ⟨b, hb, hm⟩ := this
    refine ⟨p, b, hm, fun x hx => h2 x (by rw [hb]; simp [hx]), h3, by omega, ?_⟩
    rw [hb, textBits_append, textBits_As, List.append_assoc] at h5
    exact List.append_cancel_left h5
  · rintro ⟨pads, body, hm, hb, hp, hmod, hbits⟩
    have hpp : pads = p := by omega
    subst hpp
    have : B = List.replicate ps (ch 'A') ++ body := by
      apply textBits_inj h2
      · intro x hx
        rcases List.mem_append.mp hx with hx | hx
        · rw [List.eq_of_mem_replicate hx]; decide +kernel
        · exact hb x hx
      · rw [h5, textBits_append, textBits_As, hbits]; simp only [List.append_assoc]
    rw [hm, ← List.append_assoc, ← this, ← h1]
    exact decode_encode _

theorem isPaddedWire_zero {head : Str} {raw : List UInt8} {t : Str} : Spec.IsPaddedWire head raw 0 t ↔ Spec.IsWire head raw t := by
  unfold Spec.IsPaddedWire Spec.IsWire
  simp only [List.replicate_zero, Nat.mul_zero, List.append_nil]
  constructor
  · rintro ⟨h1, b, rfl, h2, h3⟩; exact ⟨h2, h1, h3⟩
  · rintro ⟨h2, h1, h3⟩; exact ⟨h1, t, rfl, h2, h3⟩

/-- The number of zero bits and the place of the material in a padded text. -/
theorem isPaddedWire_split {cs ps ls pads n : Nat} {head : Str} {raw : List UInt8} {t : Str} (hh : Spec.IsB64Text head) (hl : head.length = cs)
    (hps : ps = cs % 4) (hls : 2 * ps + 8 * ls < 24) (hn : n = raw.length + pads) (hmod : (n + ps + ls) % 3 = 0) :
    Spec.IsPaddedWire head raw pads t ↔ ∃ body, t = head ++ body ++ List.replicate pads (ch '=') ∧ Spec.IsB64Text body ∧
      Spec.textBits body = List.replicate (2 * ps + 8 * ls) 0 ++ Spec.bytesBits raw ++ List.replicate (2 * pads) 0 := by
  constructor
  · rintro ⟨h4, body, rfl, hb, zeros, hz, hbits⟩
    have e1 := congrArg List.length hbits
    simp only [List.length_append, List.length_replicate, textBits_length', bytesBits_length'] at e1 h4
    have hzz : zeros = 2 * ps + 8 * ls := by omega
    subst hzz
    have hle : cs ≤ body.length := by omega
    have hsp := List.take_append_drop cs body
    rw [← hsp, textBits_append, List.append_assoc, List.append_assoc] at hbits
    have hx := List.append_inj hbits (by simp only [textBits_length', List.length_take]; omega)
    have hth : body.take cs = head := textBits_inj (fun x hx => hb x (List.mem_of_mem_take hx)) hh hx.1
    refine ⟨body.drop cs, by rw [← hth, List.take_append_drop], fun x hx => hb x (List.mem_of_mem_drop hx), ?_⟩
    rw [hx.2]; simp only [List.append_assoc]
  · rintro ⟨body, rfl, hb, hbits⟩
    have e1 := congrArg List.length hbits
    simp only [List.length_append, List.length_replicate, textBits_length', bytesBits_length'] at e1
    refine ⟨by simp; omega, head ++ body, rfl, ?_, _, hls, ?_⟩
    · intro x hx
      rcases List.mem_append.mp hx with hx | hx
      · exact hh x hx
      · exact hb x hx
    · rw [textBits_append, hbits]; simp only [List.append_assoc]

theorem ascii_b64Text {t : Str} (h : Spec.IsB64Text t) : Ascii t := ascii_of_isB64 ((isB64Text_iff _).mp h)

theorem ascii_pads {t : Str} (h : Spec.IsB64Text t) (n : Nat) : Ascii (t ++ List.replicate n (ch '=')) :=
  ascii_append (ascii_b64Text h) (fun c hc => by rw [List.eq_of_mem_replicate hc]; decide)

/-- The bytes before the raw material are zero. -/
theorem lead_zero {p l : Nat} (hp2 : p ≤ 2) (hpl : p = 0 ∨ l = 0) {q : List UInt8} {x : Str}
    (hq : b64DecodeOpt (List.replicate p (ch 'A') ++ x) = some q) (h1 : p ≠ 0 → beNat (q.take p) % 4 ^ p = 0)
    (h2 : p = 0 → beNat (q.take l) = 0) (h3 : p + l ≤ q.length) : q = List.replicate (p + l) 0 ++ q.drop (p + l) := by
  have : q.take (p + l) = List.replicate (p + l) 0 := by
    by_cases hp : p = 0
    · have := Matter.beNat_zero_replicate (h2 hp)
      rw [List.length_take, Nat.min_eq_left (by omega)] at this
      simpa [hp] using this
    · have hl0 : l = 0 := by omega
      have hpe : (p + 1) * 3 / 4 = p := by omega
      have e1 := decode_canonical hq
      have e2 := b64Encode_take q (k := p) (by omega)
      rw [e1, List.take_append_of_le_length (by simp), List.take_of_length_le (by simp), ← encD_replicate] at e2
      have e3 := encD_inj (by intro y hy; have := List.eq_of_mem_replicate hy; omega)
        (fun y hy => sext_lt _ y (List.mem_of_mem_take hy)) e2
      have e4 := valB_sext_take q (len := p) (by omega)
      rw [← e3, valB_replicate_zero, hpe, Nat.mod_eq_of_lt (show p < 4 by omega)] at e4
      have e5 := h1 hp
      have e6 : beNat (q.take p) = 0 := by
        have := Nat.div_add_mod (beNat (q.take p)) (4 ^ p)
        rw [← e4, e5] at this
        simpa using this.symm
      have := Matter.beNat_zero_replicate e6
      rw [List.length_take, Nat.min_eq_left (by omega)] at this
      simpa [hl0] using this
  rw [← this, List.take_append_drop]

theorem b64Decode_of {x : Str} {v : List UInt8} (hx : b64DecodeOpt x = some v) : b64Decode x = .ok v := by unfold b64Decode; rw [hx]

namespace Matter

/-- Exactly which text is read, and as what. -/
theorem exfil_iff {s : Str} (hv : utf8Valid s = true) {m : Matter} :
    Matter.exfil s = .ok m ↔ ∃ head pads t rest, pads ≤ 2 ∧ s = t ++ rest ∧ Spec.IsHead m.code m.size head ∧
      Spec.RawSize m.code m.size (m.raw.length + pads) ∧ Spec.IsPaddedWire head m.raw pads t := by
  constructor
  · intro h
    obtain ⟨z, paw, hz, hcode, hvar, hfix, hT, hdec, hpz, hlz, hpl, hraw⟩ := exfil_ok h
    have r := row_of_sizage hz
    have hlead := lead_zero (by have := r.pls; omega) r.pOrL hdec hpz hlz hpl
    rw [← hraw] at hlead
    have hlen := congrArg List.length (decode_canonical hdec)
    rw [b64Encode_length] at hlen
    have hpwl : paw.length = (z.hs + z.ss) % 4 + z.ls + m.raw.length := by rw [hlead]; simp
    rw [hlead] at hdec
    obtain ⟨pads, body, hm, hb, hp, hmod, hbits⟩ := (decode_padded _ _ _ _).mp hdec
    have hcsT : z.hs + z.ss ≤ total m z := by
      unfold total
      by_cases hf : z.fs = u32Max
      · rw [if_pos hf]; omega
      · rw [if_neg hf]; have := r.fix hf; omega
    simp only [List.length_append, List.length_replicate, List.length_drop, List.length_take, Nat.min_eq_left hT] at hlen
    have hraw' : Spec.RawSize m.code m.size (m.raw.length + pads) ∧ (z.fs ≠ u32Max → m.raw.length + pads = (z.fs - (z.hs + z.ss)) * 3 / 4 - z.ls) := by
      rcases sizage_spec hz with ⟨hf, l, f, h1, h2, h3'⟩ | ⟨hf, hm'⟩
      · have hv' := r.var hf
        refine ⟨.inr ⟨l, z.ls, f, h1, h2, h3', ?_⟩, fun h => absurd hf h⟩
        simp only [total, hf, if_true] at hlen
        omega
      · have hv' := r.fix hf
        simp only [total, hf, if_false] at hlen
        have : m.raw.length + pads = (z.fs - (z.hs + z.ss)) * 3 / 4 - z.ls := by
          obtain ⟨a, b, c, d, e, f⟩ := hv'
          rw [a] at hlen ⊢
          simp only [Nat.add_zero] at hlen ⊢ hpwl hmod
          omega
        exact ⟨.inl (by rw [this]; exact hm'), fun _ => this⟩
    have hd : (s.take (z.hs + z.ss)).drop z.hs = encD (digitsB 64 z.ss m.size) ∧ m.size < 64 ^ z.ss := by
      by_cases hf : z.fs = u32Max
      · have h1 := hvar hf
        obtain ⟨d, hd1, hd2⟩ := exists_encD (b64ToUint_ok_isB64 h1)
        have hl : d.length = z.ss := by
          have := congrArg List.length hd2
          simp at this; omega
        rw [← hd2, b64ToU32_encD hd1 (by have := r.ss4; omega)] at h1
        have h1 := Res.ok.inj h1
        have := digitsB_valB hd1
        rw [hl, h1] at this
        have hlt := valB_lt hd1
        rw [hl, h1] at hlt
        exact ⟨by rw [← hd2, this], hlt⟩
      · rw [hfix hf, (r.fix hf).1]
        exact ⟨by rw [List.drop_eq_nil_of_le (by simp; omega)]; simp [digitsB, encD], by simp⟩
    have hhead : s.take (z.hs + z.ss) = m.code ++ encD (digitsB 64 z.ss m.size) := by
      have e := List.take_append_drop z.hs (s.take (z.hs + z.ss))
      rw [List.take_take, Nat.min_eq_left (by omega), ← hcode, hd.1] at e
      exact e.symm
    have hIH : Spec.IsHead m.code m.size (m.code ++ encD (digitsB 64 z.ss m.size)) := by
      rcases sizage_spec hz with ⟨hf, l, f, h1, h2, h3'⟩ | ⟨hf, hm'⟩
      · right
        have e := hz
        rw [h3', varCode_sizage l h1 h2] at e
        injection e with e
        refine ⟨l, z.ls, f, _, h1, h2, h3', rfl, (isB64Text_iff _).mpr (encD_isB64 (digitsB_lt (by decide) _ _)), ?_, ?_⟩
        · rw [encD_length, digitsB_length, ← e]
        · rw [textNum_encD (digitsB_lt (by decide) _ _), valB_digitsB, Nat.mod_eq_of_lt hd.2]
      · left
        have : z.ss = 0 := (r.fix hf).1
        rw [this]
        exact ⟨_, hm', hfix hf, by simp [digitsB, encD]⟩
    have hHb : Spec.IsB64Text (m.code ++ encD (digitsB 64 z.ss m.size)) := by
      rw [← encD_headD hz]; exact (isB64Text_iff _).mpr (encD_isB64 (headD_lt hz))
    refine ⟨_, pads, s.take (total m z), s.drop (total m z), hp, (List.take_append_drop _ _).symm, hIH, hraw'.1, ?_⟩
    refine (isPaddedWire_split (cs := z.hs + z.ss) (ls := z.ls) hHb (by rw [← encD_headD hz, encD_length, headD_length hz]) rfl (by have := r.pls; omega) rfl (by omega)).mpr
      ⟨body, ?_, hb, hbits⟩
    rw [← hhead, List.append_assoc, ← hm]
    have e := List.take_append_drop (z.hs + z.ss) (s.take (total m z))
    rw [List.take_take, Nat.min_eq_left hcsT] at e
    exact e.symm
  · rintro ⟨head, pads, t, rest, hp, rfl, hh, hr, ht⟩
    obtain ⟨z, w, hhead⟩ := wf_of_spec (raw := m.raw ++ List.replicate pads 0) hh (by simpa using hr)
    obtain ⟨h3, h3', htot, htot4, hne, hle⟩ := w.arith
    have hz : sizage m.code = .ok z := w.szg
    have r := row_of_sizage hz
    simp only [List.length_append, List.length_replicate] at h3 h3' htot hne
    have hHb : Spec.IsB64Text head := by
      rw [hhead, ← encD_headD (m := m) hz]; exact (isB64Text_iff _).mpr (encD_isB64 (headD_lt hz))
    have hHl : head.length = z.hs + z.ss := by rw [hhead, ← encD_headD (m := m) hz, encD_length, headD_length hz]
    obtain ⟨body, rfl, hb, hbits⟩ := (isPaddedWire_split (cs := z.hs + z.ss) (ls := z.ls) hHb hHl rfl (by have := r.pls; omega) rfl (by omega)).mp ht
    have hdec := (decode_padded ((z.hs + z.ss) % 4) z.ls m.raw (body ++ List.replicate pads (ch '='))).mpr ⟨pads, body, rfl, hb, hp, by omega, hbits⟩
    have e1 := congrArg List.length hbits
    simp only [List.length_append, List.length_replicate, textBits_length', bytesBits_length'] at e1
    have hrest : utf8Valid rest = true := by
      rw [utf8Valid_ascii_append] at hv
      · exact hv
      · rw [List.append_assoc]; exact ascii_append (ascii_b64Text hHb) (ascii_pads hb _)
    have hbl : z.hs + z.ss + (body ++ List.replicate pads (ch '=')).length = if z.fs = u32Max then m.size * 4 + (z.hs + z.ss) else z.fs := by
      have : total { code := m.code, size := m.size, raw := m.raw ++ List.replicate pads 0 } z = if z.fs = u32Max then m.size * 4 + (z.hs + z.ss) else z.fs := rfl
      rw [← this, htot]
      simp only [List.length_append, List.length_replicate]
      omega
    have := exfil_head hz w.size_lt (ascii_pads hb pads) hrest hbl
    rw [hhead, List.append_assoc _ body, this]
    have hm : (if z.fs = u32Max then m.size else 0) = m.size := by
      split
      · rfl
      · rename_i hf; exact (w.fix hf).1.symm
    by_cases hps : (z.hs + z.ss) % 4 = 0
    · rw [hps] at hdec
      simp only [List.replicate_zero, List.nil_append, Nat.zero_add] at hdec
      rw [if_neg (by simpa using hps), b64Decode_of hdec, Res.ok_bind, slice_eq (by omega) (by simp), Res.ok_bind]
      simp only [List.drop_zero]
      rw [List.take_append_of_le_length (by simp), List.take_of_length_le (by simp), beNat_replicate]
      rw [if_neg (by simp), slice_eq (by simp) (by simp), Res.ok_bind, hm, List.take_length]
      simp
    · have hl0 : z.ls = 0 := by rcases r.pOrL with h | h; exact absurd h hps; exact h
      rw [hl0] at hdec
      simp only [Nat.add_zero] at hdec
      rw [if_pos hps, b64Decode_of hdec, Res.ok_bind, slice_eq (by omega) (by simp), Res.ok_bind]
      simp only [List.drop_zero]
      rw [List.take_append_of_le_length (by simp), List.take_of_length_le (by simp), beNat_replicate]
      rw [if_neg (by simp), slice_eq (by simp) (by simp), Res.ok_bind, hm, List.take_length]
      simp

end Matter

namespace Indexer

theorem isIndexedHead_headD {c : Spec.IdxCode} (hc : c ∈ Spec.idxCodes) {x : Indexer} (hcode : x.code = c.code) (w : HeadOk x (idxRow c)) :
    Spec.IsIndexedHead c x.index x.ondex (encD (headD x (idxRow c))) := by
  obtain ⟨hz, hcur, hboth, hf, hraw, hms, hsep, hnsep, _⟩ := idxCodes_table c hc
  refine ⟨encD (digitsB 64 ((idxRow c).ss - (idxRow c).os) x.index), encD (digitsB 64 (idxRow c).os x.ondex), ?_, ?_, ?_, ?_, ?_, ?_, ?_⟩
  · rw [encD_headD w.szg, hcode]
  · exact (isB64Text_iff _).mpr (encD_isB64 (digitsB_lt (by decide) _ _))
  · rw [encD_length, digitsB_length, hms]
  · rw [textNum_encD (digitsB_lt (by decide) _ _), valB_digitsB, Nat.mod_eq_of_lt w.index]
  · exact (isB64Text_iff _).mpr (encD_isB64 (digitsB_lt (by decide) _ _))
  · rw [encD_length, digitsB_length]
    cases hs : c.separate
    · exact hnsep hs
    · exact (hsep hs).1
  · intro hs
    rw [textNum_encD (digitsB_lt (by decide) _ _), valB_digitsB, Nat.mod_eq_of_lt]
    exact w.ondex (by have := hsep hs; omega)

theorem headOk_of_isIndexedHead {c : Spec.IdxCode} (hc : c ∈ Spec.idxCodes) {x : Indexer} (hcode : x.code = c.code) {head : Str}
    (hh : Spec.IsIndexedHead c x.index x.ondex head) : HeadOk x (idxRow c) ∧ head = encD (headD x (idxRow c)) := by
  obtain ⟨hz, hcur, hboth, hf, hraw, hms, hsep, hnsep, _⟩ := idxCodes_table c hc
  have w : HeadOk x (idxRow c) := by
    obtain ⟨d1, d2, rfl, h1, h2, h3, h4, h5, h6⟩ := hh
    refine ⟨by rw [hcode]; exact hz, ?_, ?_⟩
    · have := textNum_lt h1
      rw [h2, h3] at this
      rw [hms]; exact this
    · intro h0
      cases hs : c.separate
      · have := hnsep hs; omega
      · have := textNum_lt h4
        rw [h5, h6 hs, hs] at this
        rw [(hsep hs).1]; exact this
  exact ⟨w, isIndexedHead_unique hh (isIndexedHead_headD hc hcode w)⟩

theorem meant_iff {c : Spec.IdxCode} (hc : c ∈ Spec.idxCodes) {x : Indexer} (hcode : x.code = c.code) :
    Meant x.code (idxRow c).os x.index x.ondex ↔ Spec.OndexRead c x.index x.ondex := by
  obtain ⟨hz, hcur, hboth, hf, hraw, hms, hsep, hnsep, _⟩ := idxCodes_table c hc
  unfold Meant Spec.OndexRead
  rw [hcode, hcur]
  cases hs : c.separate <;> cases hcc : c.current
  · simp [hnsep hs]
  · simp
  · have := hsep hs
    simp; omega
  · simp

/-- Exactly which text is read as an indexed signature, and as what. -/
theorem exfil_iff {s : Str} (hv : utf8Valid s = true) {c : Spec.IdxCode} (hc : c ∈ Spec.idxCodes) {x : Indexer} (hcode : x.code = c.code) :
    Indexer.exfil s = .ok x ↔ ∃ head pads t rest, pads ≤ 2 ∧ s = t ++ rest ∧ Spec.IsIndexedHead c x.index x.ondex head ∧
      Spec.OndexRead c x.index x.ondex ∧ x.raw.length + pads = c.raw ∧ Spec.IsPaddedWire head x.raw pads t := by
  obtain ⟨hzc, hcur, hboth, hf, hrawc, hms, hsep, hnsep, _⟩ := idxCodes_table c hc
  have r := row_of_sizage hzc
  have hfix := r.fix hf
  have hcs8 := r.cs
  have hp2 := r.p2
  constructor
  · intro h
    rcases exfil_cases s with ⟨e, he⟩ | ⟨i, _, _, hp⟩ | ⟨y, z, hw, hm, hcs, hhead, heq⟩
    · rw [he] at h; cases h
    · rw [hp] at h; cases h
    rw [heq] at h
    obtain ⟨paw, hx, hT, hdec, hpl, hpz, hlz⟩ := exfilBody_ok hw.szg h
    have hyc : y.code = c.code := by rw [← hcode, hx]
    have : z = idxRow c := idxRow_unique hc (by rw [← hyc]; exact hw.szg)
    subst this
    have hls : (idxRow c).ls = 0 := rfl
    have hlead := lead_zero hp2 (.inr hls) hdec hpz hlz hpl
    have hxr : x.raw = paw.drop (((idxRow c).hs + (idxRow c).ss) % 4) := by rw [hx]
    rw [hls, Nat.add_zero, ← hxr] at hlead
    have hlen := congrArg List.length (decode_canonical hdec)
    rw [b64Encode_length] at hlen
    have hpwl : paw.length = ((idxRow c).hs + (idxRow c).ss) % 4 + x.raw.length := by rw [hlead]; simp
    rw [hlead, ← Nat.add_zero (((idxRow c).hs + (idxRow c).ss) % 4)] at hdec
    obtain ⟨pads, body, hmm, hb, hp, hmod, hbits⟩ := (decode_padded _ _ _ _).mp hdec
    have htg := total_ge hw.szg
    simp only [List.length_append, List.length_replicate, List.length_drop, List.length_take, Nat.min_eq_left hT] at hlen
    have hwx : HeadOk x (idxRow c) := by rw [hx]; exact ⟨hw.szg, hw.index, hw.ondex⟩
    have hHb : Spec.IsB64Text (encD (headD x (idxRow c))) := (isB64Text_iff _).mpr (encD_isB64 (headD_lt hwx.szg))
    have htot : total y (idxRow c) = (idxRow c).fs := by rw [total, if_neg hf]
    rw [htot] at hlen htg hmm hT
    refine ⟨_, pads, s.take (idxRow c).fs, s.drop (idxRow c).fs, hp, (List.take_append_drop _ _).symm, isIndexedHead_headD hc hcode hwx,
      (meant_iff hc hcode).mp (by rw [hx]; exact hm), by omega, ?_⟩
    refine (isPaddedWire_split (cs := (idxRow c).hs + (idxRow c).ss) (ls := 0) hHb (by rw [encD_length, headD_length hwx.szg]) rfl (by omega) rfl
      (by omega)).mpr ⟨body, ?_, hb, hbits⟩
    rw [List.append_assoc, ← hmm]
    have e := List.take_append_drop ((idxRow c).hs + (idxRow c).ss) (s.take (idxRow c).fs)
    rw [List.take_take, Nat.min_eq_left htg.1, hhead] at e
    have hyx : headD x (idxRow c) = headD y (idxRow c) := by rw [hx]; rfl
    rw [hyx]
    exact e.symm
  · rintro ⟨head, pads, t, rest, hp, rfl, hh, hon, hr, ht⟩
    obtain ⟨w, rfl⟩ := headOk_of_isIndexedHead hc hcode hh
    have hHb : Spec.IsB64Text (encD (headD x (idxRow c))) := (isB64Text_iff _).mpr (encD_isB64 (headD_lt w.szg))
    have hHl : (encD (headD x (idxRow c))).length = (idxRow c).hs + (idxRow c).ss := by rw [encD_length, headD_length w.szg]
    obtain ⟨a, b, c', d⟩ := hfix
    obtain ⟨body, rfl, hb, hbits⟩ := (isPaddedWire_split (cs := (idxRow c).hs + (idxRow c).ss) (ls := 0) hHb hHl rfl (by omega) rfl (by omega)).mp ht
    have hdec := (decode_padded (((idxRow c).hs + (idxRow c).ss) % 4) 0 x.raw (body ++ List.replicate pads (ch '='))).mpr ⟨pads, body, rfl, hb, hp, by omega, hbits⟩
    have e1 := congrArg List.length hbits
    simp only [List.length_append, List.length_replicate, textBits_length', bytesBits_length'] at e1
    have hba := ascii_pads hb pads
    have hrest : utf8Valid rest = true := by
      rw [List.append_assoc _ body, utf8Valid_ascii_append] at hv
      · exact hv
      · exact ascii_append (ascii_b64Text hHb) hba
    have hbr : utf8Valid ((body ++ List.replicate pads (ch '=')) ++ rest) = true := by rw [utf8Valid_ascii_append hba]; exact hrest
    have e := exfil_head w ((meant_iff hc hcode).mpr hon) hbr
    have hassoc : encD (headD x (idxRow c)) ++ body ++ List.replicate pads (ch '=') ++ rest =
        encD (headD x (idxRow c)) ++ ((body ++ List.replicate pads (ch '=')) ++ rest) := by simp only [List.append_assoc]
    rw [hassoc, e]
    have htot : total x (idxRow c) = (idxRow c).fs := by rw [total, if_neg hf]
    have hwhole : Ascii (encD (headD x (idxRow c)) ++ (body ++ List.replicate pads (ch '='))) := ascii_append (ascii_b64Text hHb) hba
    have hwl : (encD (headD x (idxRow c)) ++ (body ++ List.replicate pads (ch '='))).length = (idxRow c).fs := by
      simp only [List.length_append, List.length_replicate]
      rw [hHl]; omega
    unfold exfilBody
    rw [← List.append_assoc, if_neg (by rw [htot, List.length_append, hwl]; omega), htot, sliceStr_prefix hwhole hrest (Nat.zero_le _) (by omega), Res.ok_bind,
      List.drop_zero, ← hwl, List.take_length, sliceStr_ascii_to_end hwhole (by omega), Res.ok_bind]
    rw [← hHl, List.drop_append_of_le_length (Nat.le_refl _), List.drop_length, List.nil_append, hHl]
    simp only [Nat.add_zero] at hdec
    by_cases hps : ((idxRow c).hs + (idxRow c).ss) % 4 = 0
    · rw [hps] at hdec ⊢
      simp only [List.replicate_zero, List.nil_append] at hdec
      rw [if_neg (by simp), b64Decode_of hdec, Res.ok_bind, slice_eq (by omega) (by simp [idxRow]), Res.ok_bind]
      rw [show (idxRow c).ls = 0 from rfl]
      simp only [List.take_zero, List.drop_nil]
      rw [if_neg (by simp [beNat]), slice_eq (by omega) (by simp), Res.ok_bind, List.take_length]
      simp
    · rw [if_pos hps, b64Decode_of hdec, Res.ok_bind, slice_eq (by omega) (by simp), Res.ok_bind]
      simp only [List.drop_zero]
      rw [List.take_append_of_le_length (by simp), List.take_of_length_le (by simp), beNat_replicate]
      rw [if_neg (by simp), slice_eq (by simp) (by simp), Res.ok_bind, List.take_length]
      simp

end Indexer

end Cesride
