import Verif.Model.Util

/-! # Digit lists, base 64 and base 256 -/

namespace Cesride

/-- Big-endian value of a digit list. -/
def valB (b : Nat) (l : List Nat) : Nat := l.foldl (fun a d => a * b + d) 0

/-- Big-endian digits. -/
def digitsB (b : Nat) : Nat → Nat → List Nat
  | 0, _ => []
  | len + 1, n => digitsB b len (n / b) ++ [n % b]

@[simp] theorem valB_nil (b : Nat) : valB b [] = 0 := rfl

theorem foldl_val (b : Nat) (l : List Nat) (a : Nat) :
    l.foldl (fun a d => a * b + d) a = a * b ^ l.length + valB b l := by
  induction l generalizing a with
  | nil => simp
  | cons x xs ih =>
    simp only [List.foldl_cons, List.length_cons, valB]
    rw [ih, ih (0 * b + x)]
    simp [Nat.pow_succ, Nat.add_mul]
    rw [Nat.mul_assoc, Nat.mul_comm b]
    omega

theorem valB_cons (b x : Nat) (l : List Nat) : valB b (x :: l) = x * b ^ l.length + valB b l := by
  have := foldl_val b l x
  simpa [valB] using this

theorem valB_append (b : Nat) (x y : List Nat) :
    valB b (x ++ y) = valB b x * b ^ y.length + valB b y := by
  unfold valB
  rw [List.foldl_append, foldl_val]
  rfl

theorem valB_replicate_zero (b n : Nat) : valB b (List.replicate n 0) = 0 := by
  induction n with
  | zero => rfl
  | succ n ih => rw [List.replicate_succ, valB_cons, ih]; simp

theorem valB_lt {b : Nat} {l : List Nat} (h : ∀ d ∈ l, d < b) : valB b l < b ^ l.length := by
  induction l with
  | nil => simp
  | cons x xs ih =>
    rw [valB_cons]
    have hx := h x (by simp)
    have := ih (fun d hd => h d (by simp [hd]))
    simp only [List.length_cons, Nat.pow_succ]
    calc x * b ^ xs.length + valB b xs < x * b ^ xs.length + b ^ xs.length := by omega
      _ = (x + 1) * b ^ xs.length := by rw [Nat.add_mul]; simp
      _ ≤ b * b ^ xs.length := Nat.mul_le_mul_right _ hx
      _ = b ^ xs.length * b := Nat.mul_comm _ _

theorem valB_inj {b : Nat} : ∀ {x y : List Nat}, (∀ d ∈ x, d < b) → (∀ d ∈ y, d < b) →
    x.length = y.length → valB b x = valB b y → x = y := by
  intro x
  induction x with
  | nil => intro y _ _ hl _; cases y <;> simp_all
  | cons a x ih =>
    intro y hx hy hl hv
    cases y with
    | nil => simp at hl
    | cons c y =>
      rw [valB_cons, valB_cons] at hv
      have hl' : x.length = y.length := by simpa using hl
      have h1 := valB_lt (l := x) (fun d hd => hx d (by simp [hd]))
      have h2 := valB_lt (l := y) (fun d hd => hy d (by simp [hd]))
      rw [hl'] at hv h1
      have hac : a = c := by
        rcases Nat.lt_trichotomy a c with h | h | h
        · exfalso
          have : (a + 1) * b ^ y.length ≤ c * b ^ y.length := Nat.mul_le_mul_right _ h
          rw [Nat.add_mul] at this; omega
        · exact h
        · exfalso
          have : (c + 1) * b ^ y.length ≤ a * b ^ y.length := Nat.mul_le_mul_right _ h
          rw [Nat.add_mul] at this; omega
      subst hac
      congr 1
      exact ih (fun d hd => hx d (by simp [hd])) (fun d hd => hy d (by simp [hd])) hl' (by omega)

@[simp] theorem digitsB_length (b len n : Nat) : (digitsB b len n).length = len := by
  induction len generalizing n with
  | zero => rfl
  | succ len ih => simp [digitsB, ih]

theorem digitsB_lt {b : Nat} (hb : 0 < b) (len n : Nat) : ∀ d ∈ digitsB b len n, d < b := by
  induction len generalizing n with
  | zero => simp [digitsB]
  | succ len ih =>
    intro d hd
    simp only [digitsB, List.mem_append, List.mem_singleton] at hd
    rcases hd with hd | hd
    · exact ih _ d hd
    · subst hd; exact Nat.mod_lt _ hb

theorem valB_digitsB (b len n : Nat) : valB b (digitsB b len n) = n % b ^ len := by
  induction len generalizing n with
  | zero => simp [digitsB, Nat.mod_one]
  | succ len ih =>
    simp only [digitsB, valB_append, ih]
    simp only [valB_cons, List.length_cons, List.length_nil, valB_nil]
    rw [Nat.pow_succ b len, Nat.mul_comm (b ^ len) b, Nat.mod_mul]
    simp [Nat.mul_comm]; omega

theorem digitsB_valB {b : Nat} {l : List Nat} (h : ∀ d ∈ l, d < b) :
    digitsB b l.length (valB b l) = l := by
  by_cases hb : 0 < b
  · apply valB_inj (digitsB_lt hb _ _) h (by simp)
    rw [valB_digitsB, Nat.mod_eq_of_lt (valB_lt h)]
  · cases l with
    | nil => rfl
    | cons x xs => have := h x (by simp); omega

/-- Taking a prefix of the digits is dividing the value. -/
theorem valB_take {b : Nat} {l : List Nat} (h : ∀ d ∈ l, d < b) (k : Nat) :
    valB b (l.take k) = valB b l / b ^ (l.length - k) := by
  have e := valB_append b (l.take k) (l.drop k)
  rw [List.take_append_drop] at e
  have hlt := valB_lt (b := b) (l := l.drop k) (fun d hd => h d (List.mem_of_mem_drop hd))
  rw [List.length_drop] at hlt e
  have hpos : 0 < b ^ (l.length - k) := by omega
  rw [e, Nat.mul_comm, Nat.mul_add_div hpos, Nat.div_eq_of_lt hlt]
  simp

theorem digitsB_zero (b len : Nat) : digitsB b len 0 = List.replicate len 0 := by
  induction len with
  | zero => rfl
  | succ n ih => simp [digitsB, ih, List.replicate_succ']

/-! ## Bytes -/

/-- Bytes as digits. -/
def nats (l : List UInt8) : List Nat := l.map UInt8.toNat

@[simp] theorem nats_length (l : List UInt8) : (nats l).length = l.length := by simp [nats]
@[simp] theorem nats_append (a b : List UInt8) : nats (a ++ b) = nats a ++ nats b := by simp [nats]
@[simp] theorem nats_replicate (n : Nat) : nats (List.replicate n 0) = List.replicate n 0 := by simp [nats]
theorem nats_take (l : List UInt8) (k : Nat) : nats (l.take k) = (nats l).take k := by simp [nats]
theorem nats_drop (l : List UInt8) (k : Nat) : nats (l.drop k) = (nats l).drop k := by simp [nats]

theorem nats_lt (l : List UInt8) : ∀ d ∈ nats l, d < 256 := by
  intro d hd
  simp only [nats, List.mem_map] at hd
  obtain ⟨x, _, rfl⟩ := hd
  exact x.toNat_lt

theorem nats_inj {a b : List UInt8} (h : nats a = nats b) : a = b := by
  induction a generalizing b with
  | nil => cases b <;> simp_all [nats]
  | cons x xs ih =>
    cases b with
    | nil => simp [nats] at h
    | cons y ys =>
      simp only [nats, List.map_cons, List.cons.injEq] at h
      rw [UInt8.toNat_inj.mp h.1, ih h.2]

theorem beNat_eq (l : List UInt8) : beNat l = valB 256 (nats l) := by
  simp [beNat, valB, nats, List.foldl_map]

theorem beNat_append (a b : List UInt8) : beNat (a ++ b) = beNat a * 256 ^ b.length + beNat b := by
  simp [beNat_eq, valB_append]

theorem beNat_lt (l : List UInt8) : beNat l < 256 ^ l.length := by
  rw [beNat_eq]; simpa using valB_lt (nats_lt l)

theorem beNat_inj {a b : List UInt8} (hl : a.length = b.length) (h : beNat a = beNat b) : a = b := by
  apply nats_inj
  exact valB_inj (nats_lt a) (nats_lt b) (by simpa) (by simpa [beNat_eq] using h)

theorem beNat_take (l : List UInt8) (k : Nat) : beNat (l.take k) = beNat l / 256 ^ (l.length - k) := by
  rw [beNat_eq, beNat_eq, nats_take, valB_take (nats_lt l)]; simp

@[simp] theorem beNat_replicate (n : Nat) : beNat (List.replicate n 0) = 0 := by
  rw [beNat_eq, nats_replicate, valB_replicate_zero]

theorem nats_toBe (n v : Nat) : nats (toBe n v) = digitsB 256 n v := by
  induction n generalizing v with
  | zero => rfl
  | succ n ih =>
    simp only [toBe, digitsB, nats_append, ih]
    congr 1
    simp [nats]

@[simp] theorem toBe_length (n v : Nat) : (toBe n v).length = n := by
  have := congrArg List.length (nats_toBe n v)
  simpa using this

theorem beNat_toBe (n v : Nat) : beNat (toBe n v) = v % 256 ^ n := by
  rw [beNat_eq, nats_toBe, valB_digitsB]

theorem toBe_beNat (l : List UInt8) : toBe l.length (beNat l) = l := by
  apply beNat_inj (by simp)
  rw [beNat_toBe, Nat.mod_eq_of_lt (beNat_lt l)]

/-- The low bytes of a wider big-endian encoding. -/
theorem toBe_drop (n k v : Nat) (h : k ≤ n) : (toBe n v).drop k = toBe (n - k) v := by
  have e := beNat_append ((toBe n v).take k) ((toBe n v).drop k)
  rw [List.take_append_drop, beNat_toBe] at e
  apply beNat_inj (by simp)
  rw [beNat_toBe]
  have hlt := beNat_lt ((toBe n v).drop k)
  simp only [List.length_drop, toBe_length] at e hlt
  have hm : v % 256 ^ n % 256 ^ (n - k) = v % 256 ^ (n - k) := by
    apply Nat.mod_mod_of_dvd
    exact Nat.pow_dvd_pow 256 (by omega)
  rw [← hm, e, Nat.add_comm, Nat.add_mul_mod_self_right, Nat.mod_eq_of_lt hlt]

/-! ## Sextets -/

theorem sextets_cons3 (a b c : UInt8) (rest : List UInt8) :
    sextets (a :: b :: c :: rest) = sextets [a, b, c] ++ sextets rest := by
  simp [sextets]

theorem sextets_append {a : List UInt8} (b : List UInt8) (h : a.length % 3 = 0) :
    sextets (a ++ b) = sextets a ++ sextets b := by
  induction a using sextets.induct with
  | case1 x y z rest ih =>
    have : rest.length % 3 = 0 := by simp only [List.length_cons] at h; omega
    simp only [List.cons_append, sextets, ih this]
  | case2 l hl =>
    match l, hl, h with
    | [], _, _ => simp [sextets]
    | [x], _, h => simp at h
    | [x, y], _, h => simp at h
    | x :: y :: z :: r, hl, _ => exact absurd rfl (hl x y z r)

theorem sextets_length (l : List UInt8) : (sextets l).length = l.length / 3 * 4 := by
  induction l using sextets.induct with
  | case1 x y z rest ih => simp only [sextets, List.length_cons, ih]; omega
  | case2 l hl =>
    match l, hl with
    | [], _ => simp [sextets]
    | [x], _ => simp [sextets]
    | [x, y], _ => simp [sextets]
    | x :: y :: z :: r, hl => exact absurd rfl (hl x y z r)

theorem sextets_lt (l : List UInt8) : ∀ d ∈ sextets l, d < 64 := by
  induction l using sextets.induct with
  | case1 x y z rest ih =>
    intro d hd
    simp only [sextets, List.mem_cons] at hd
    rcases hd with h | h | h | h | h
    · omega
    · omega
    · omega
    · omega
    · exact ih d h
  | case2 l hl =>
    match l, hl with
    | [], _ => simp [sextets]
    | [x], _ => simp [sextets]
    | [x, y], _ => simp [sextets]
    | x :: y :: z :: r, hl => exact absurd rfl (hl x y z r)

theorem pow_64_256 (k : Nat) : 64 ^ (4 * k) = 256 ^ (3 * k) := by
  rw [Nat.pow_mul, Nat.pow_mul]

theorem valB_sextets {l : List UInt8} (h : l.length % 3 = 0) : valB 64 (sextets l) = beNat l := by
  induction l using sextets.induct with
  | case1 x y z rest ih =>
    have hr : rest.length % 3 = 0 := by simp only [List.length_cons] at h; omega
    have ih := ih hr
    rw [sextets_cons3, valB_append, ih, sextets_length]
    have e : x :: y :: z :: rest = [x, y, z] ++ rest := rfl
    rw [e, beNat_append]
    have hk : rest.length = 3 * (rest.length / 3) := by omega
    have hp : (64 : Nat) ^ (rest.length / 3 * 4) = 256 ^ rest.length := by
      rw [Nat.mul_comm, pow_64_256, ← hk]
    rw [hp]
    have hg : valB 64 (sextets [x, y, z]) = beNat [x, y, z] := by
      have hx := x.toNat_lt
      have hy := y.toNat_lt
      have hz := z.toNat_lt
      simp [sextets, valB, beNat]
      omega
    rw [hg]
  | case2 l hl =>
    match l, hl, h with
    | [], _, _ => simp [sextets, beNat]
    | [x], _, h => simp at h
    | [x, y], _, h => simp at h
    | x :: y :: z :: r, hl, _ => exact absurd rfl (hl x y z r)

theorem sextets_inj {a b : List UInt8} (ha : a.length % 3 = 0) (hb : b.length % 3 = 0)
    (h : sextets a = sextets b) : a = b := by
  have hl := congrArg List.length h
  rw [sextets_length, sextets_length] at hl
  apply beNat_inj (by omega)
  rw [← valB_sextets ha, ← valB_sextets hb, h]

/-- Characterisation of a decoded group list by value. -/
theorem sextets_eq_of_val {l : List UInt8} {d : List Nat} (h : l.length % 3 = 0) (hd : ∀ x ∈ d, x < 64)
    (hl : d.length = l.length / 3 * 4) (hv : valB 64 d = beNat l) : sextets l = d := by
  apply valB_inj (sextets_lt l) hd
  · rw [sextets_length, hl]
  · rw [valB_sextets h, hv]

end Cesride
