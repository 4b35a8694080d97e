import Verif.Py.Basic
/-!
# Text codecs used by the launch code

`shlex.quote`, `str.encode()` (strict UTF-8) and `base64.b64encode`/`b64decode`, which
`DAServer._process_msg(LaunchRequest)` applies to the executable path, the ansibug
arguments and the socket name before writing the launch script
(/repo/src/ansibug/_debug_adapter.py:522-524).  These are Python standard library
functions: the definitions follow CPython's `Lib/shlex.py:quote`, the UTF-8 codec and
`Lib/base64.py`/`Modules/binascii.c`.
-/

namespace Verif.Launch
open Verif

/-! ## UTF-8 encoding -/

/-- The UTF-8 bytes of one code point; `none` for surrogates and values above U+10FFFF
(UnicodeEncodeError).  Models `str.encode()` as used at
/repo/src/ansibug/_debug_adapter.py:522 and the text file writer at _debug_adapter.py:531. -/
def utf8Char (c : Nat) : Option Bytes :=
  if c < 0x80 then some [UInt8.ofNat c]
  else if c < 0x800 then some [UInt8.ofNat (0xC0 + c / 64), UInt8.ofNat (0x80 + c % 64)]
  else if 0xD800 ≤ c ∧ c ≤ 0xDFFF then none
  else if c < 0x10000 then
    some [UInt8.ofNat (0xE0 + c / 4096), UInt8.ofNat (0x80 + c / 64 % 64), UInt8.ofNat (0x80 + c % 64)]
  else if c < 0x110000 then
    some [UInt8.ofNat (0xF0 + c / 262144), UInt8.ofNat (0x80 + c / 4096 % 64),
      UInt8.ofNat (0x80 + c / 64 % 64), UInt8.ofNat (0x80 + c % 64)]
  else none

/-- `text.encode()` (/repo/src/ansibug/_debug_adapter.py:522). -/
def utf8Encode : Str → Option Bytes
  | [] => some []
  | c :: cs =>
    match utf8Char c, utf8Encode cs with
    | some b, some bs => some (b ++ bs)
    | _, _ => none

theorem toNat_ofNat_lt {n : Nat} (h : n < 256) : (UInt8.ofNat n).toNat = n := by
  simp [UInt8.toNat_ofNat']; omega

/-- Decoding what was encoded gives the text back. -/
theorem utf8Decode_encode : ∀ (s : Str) (b : Bytes), utf8Encode s = some b → utf8Decode b = some s := by
  intro s
  induction s with
  | nil => intro b h; simp [utf8Encode] at h; subst h; simp [utf8Decode]
  | cons c cs ih =>
    intro b h
    simp only [utf8Encode] at h
    split at h
    · rename_i bc bs hc hs
      cases h
      have ih := ih bs hs
      unfold utf8Char at hc
      split at hc
      · cases hc
        rename_i hlt
        simp only [List.cons_append, List.nil_append]
        unfold utf8Decode
        simp only [toNat_ofNat_lt (show c < 256 by omega), if_pos hlt, ih]; rfl
      split at hc
      · cases hc
        simp only [List.cons_append, List.nil_append]
        unfold utf8Decode
        simp only [toNat_ofNat_lt (show 0xC0 + c / 64 < 256 by omega),
          toNat_ofNat_lt (show 0x80 + c % 64 < 256 by omega), ih]
        rw [if_neg (by omega), if_neg (by omega), if_pos (by omega), if_pos (by omega)]
        simp; omega
      split at hc
      · cases hc
      split at hc
      · cases hc
        simp only [List.cons_append, List.nil_append]
        unfold utf8Decode
        simp only [toNat_ofNat_lt (show 0xE0 + c / 4096 < 256 by omega),
          toNat_ofNat_lt (show 0x80 + c / 64 % 64 < 256 by omega),
          toNat_ofNat_lt (show 0x80 + c % 64 < 256 by omega), ih]
        rw [if_neg (by omega), if_neg (by omega), if_neg (by omega), if_pos (by omega), if_pos (by omega)]
        simp; omega
      split at hc
      · cases hc
        simp only [List.cons_append, List.nil_append]
        unfold utf8Decode
        simp only [toNat_ofNat_lt (show 0xF0 + c / 262144 < 256 by omega),
          toNat_ofNat_lt (show 0x80 + c / 4096 % 64 < 256 by omega),
          toNat_ofNat_lt (show 0x80 + c / 64 % 64 < 256 by omega),
          toNat_ofNat_lt (show 0x80 + c % 64 < 256 by omega), ih]
        rw [if_neg (by omega), if_neg (by omega), if_neg (by omega), if_neg (by omega), if_pos (by omega), if_pos (by omega)]
        simp; omega
      · cases hc
    · cases h

/-- Exactly the texts without surrogates (and out of range values) can be encoded. -/
theorem utf8Encode_isSome (s : Str) :
    (utf8Encode s).isSome ↔ ∀ c ∈ s, c < 0x110000 ∧ ¬ (0xD800 ≤ c ∧ c ≤ 0xDFFF) := by
  induction s with
  | nil => simp [utf8Encode]
  | cons c cs ih =>
    have hc : (utf8Char c).isSome ↔ c < 0x110000 ∧ ¬ (0xD800 ≤ c ∧ c ≤ 0xDFFF) := by
      unfold utf8Char
      constructor
      · intro h
        split at h; · omega
        split at h; · omega
        split at h; · simp at h
        split at h; · omega
        split at h; · omega
        simp at h
      · intro h
        split; · rfl
        split; · rfl
        rw [if_neg h.2]
        split; · rfl
        rw [if_pos h.1]; rfl
    simp only [List.forall_mem_cons, ← ih, ← hc, utf8Encode]
    cases utf8Char c <;> cases utf8Encode cs <;> simp

theorem utf8Encode_append (a b : Str) :
    utf8Encode (a ++ b) = (utf8Encode a).bind fun x => (utf8Encode b).map (x ++ ·) := by
  induction a with
  | nil => simp [utf8Encode]
  | cons c cs ih =>
    simp only [List.cons_append, utf8Encode, ih]
    cases utf8Char c <;> cases utf8Encode cs <;> cases utf8Encode b <;> simp

/-! ## Base 64 -/

/-- The standard alphabet, `A-Za-z0-9+/`. -/
def b64Char (n : Nat) : Nat :=
  if n < 26 then 65 + n
  else if n < 52 then 97 + (n - 26)
  else if n < 62 then 48 + (n - 52)
  else if n = 62 then 43
  else 47

/-- Value of a character of the alphabet. -/
def b64Val (c : Nat) : Option Nat :=
  if 65 ≤ c ∧ c ≤ 90 then some (c - 65)
  else if 97 ≤ c ∧ c ≤ 122 then some (c - 97 + 26)
  else if 48 ≤ c ∧ c ≤ 57 then some (c - 48 + 52)
  else if c = 43 then some 62
  else if c = 47 then some 63
  else none

theorem b64Val_char {n : Nat} (h : n < 64) : b64Val (b64Char n) = some n := by
  unfold b64Char
  split
  · unfold b64Val; rw [if_pos (by omega)]; congr 1; omega
  split
  · unfold b64Val; rw [if_neg (by omega), if_pos (by omega)]; congr 1; omega
  split
  · unfold b64Val; rw [if_neg (by omega), if_neg (by omega), if_pos (by omega)]; congr 1; omega
  split
  · subst_vars; rfl
  · have : n = 63 := by omega
    subst this; rfl

/-- `base64.b64encode(b).decode()` (/repo/src/ansibug/_debug_adapter.py:522). -/
def b64Encode : Bytes → Str
  | [] => []
  | [x] => [b64Char (x.toNat / 4), b64Char (x.toNat % 4 * 16), 61, 61]
  | [x, y] => [b64Char (x.toNat / 4), b64Char (x.toNat % 4 * 16 + y.toNat / 16),
      b64Char (y.toNat % 16 * 4), 61]
  | x :: y :: z :: r => b64Char (x.toNat / 4) :: b64Char (x.toNat % 4 * 16 + y.toNat / 16) ::
      b64Char (y.toNat % 16 * 4 + z.toNat / 64) :: b64Char (z.toNat % 64) :: b64Encode r

/-- `base64.b64decode(text)` as run by the launch script
(/repo/src/ansibug/_debug_adapter.py:508), for well formed text (the Python function also
skips characters outside of the alphabet; here they are an error). -/
def b64Decode : Str → Option Bytes
  | [] => some []
  | a :: b :: c :: d :: r =>
    if d = 61 then
      if r ≠ [] then none
      else if c = 61 then
        match b64Val a, b64Val b with
        | some va, some vb => some [UInt8.ofNat (va * 4 + vb / 16)]
        | _, _ => none
      else
        match b64Val a, b64Val b, b64Val c with
        | some va, some vb, some vc =>
          some [UInt8.ofNat (va * 4 + vb / 16), UInt8.ofNat (vb % 16 * 16 + vc / 4)]
        | _, _, _ => none
    else
      match b64Val a, b64Val b, b64Val c, b64Val d, b64Decode r with
      | some va, some vb, some vc, some vd, some bs =>
        some (UInt8.ofNat (va * 4 + vb / 16) :: UInt8.ofNat (vb % 16 * 16 + vc / 4) ::
          UInt8.ofNat (vc % 4 * 64 + vd) :: bs)
      | _, _, _, _, _ => none
  | _ => none

theorem b64Char_ne_pad {n : Nat} (h : n < 64) : b64Char n ≠ 61 := by
  intro e; have := b64Val_char h; rw [e] at this; simp [b64Val] at this

theorem u8_lt (x : UInt8) : x.toNat < 256 := x.toNat_lt

theorem ofNat_toNat_eq (x : UInt8) {n : Nat} (h : n = x.toNat) : UInt8.ofNat n = x := by
  subst h; simp

/-- Base 64 decoding inverts encoding. -/
theorem b64_roundtrip (b : Bytes) : b64Decode (b64Encode b) = some b := by
  fun_induction b64Encode b with
  | case1 => rfl
  | case2 x =>
    have hx := u8_lt x
    simp only [b64Decode, if_true, ne_eq, not_true_eq_false, if_false,
      b64Val_char (show x.toNat / 4 < 64 by omega), b64Val_char (show x.toNat % 4 * 16 < 64 by omega)]
    rw [ofNat_toNat_eq x (by omega)]
  | case3 x y =>
    have hx := u8_lt x
    have hy := u8_lt y
    simp only [b64Decode, if_true, ne_eq, not_true_eq_false, if_false,
      b64Val_char (show x.toNat / 4 < 64 by omega),
      b64Val_char (show x.toNat % 4 * 16 + y.toNat / 16 < 64 by omega),
      b64Val_char (show y.toNat % 16 * 4 < 64 by omega),
      b64Char_ne_pad (show y.toNat % 16 * 4 < 64 by omega)]
    rw [ofNat_toNat_eq x (by omega), ofNat_toNat_eq y (by omega)]
  | case4 x y z r ih =>
    have hx := u8_lt x
    have hy := u8_lt y
    have hz := u8_lt z
    simp only [b64Decode, 
      b64Val_char (show x.toNat / 4 < 64 by omega),
      b64Val_char (show x.toNat % 4 * 16 + y.toNat / 16 < 64 by omega),
      b64Val_char (show y.toNat % 16 * 4 + z.toNat / 64 < 64 by omega),
      b64Val_char (show z.toNat % 64 < 64 by omega),
      b64Char_ne_pad (show z.toNat % 64 < 64 by omega), ih, if_false]
    rw [ofNat_toNat_eq x (by omega), ofNat_toNat_eq y (by omega), ofNat_toNat_eq z (by omega)]

/-- A base 64 character: a letter, a digit, `+`, `/` or the padding `=`. -/
def isB64 (c : Nat) : Bool :=
  (65 ≤ c && c ≤ 90) || (97 ≤ c && c ≤ 122) || (48 ≤ c && c ≤ 57) || c == 43 || c == 47 || c == 61

theorem isB64_char {n : Nat} (_h : n < 64) : isB64 (b64Char n) = true := by
  unfold isB64 b64Char
  split
  · simp; omega
  split
  · simp; omega
  split
  · simp; omega
  split <;> simp

/-- Encoded text contains characters of the base 64 alphabet only. -/
theorem b64Encode_safe (b : Bytes) : ∀ c ∈ b64Encode b, isB64 c = true := by
  fun_induction b64Encode b with
  | case1 => simp
  | case2 x =>
    have hx := u8_lt x
    simp only [List.forall_mem_cons]
    exact ⟨isB64_char (by omega), isB64_char (by omega), rfl, rfl, by simp⟩
  | case3 x y =>
    have hx := u8_lt x
    have hy := u8_lt y
    simp only [List.forall_mem_cons]
    exact ⟨isB64_char (by omega), isB64_char (by omega), isB64_char (by omega), rfl, by simp⟩
  | case4 x y z r ih =>
    have hx := u8_lt x
    have hy := u8_lt y
    have hz := u8_lt z
    simp only [List.forall_mem_cons]
    exact ⟨isB64_char (by omega), isB64_char (by omega), isB64_char (by omega), isB64_char (by omega), ih⟩

/-! ## shlex.quote -/

/-- Characters `shlex.quote` considers safe: ASCII letters and digits and
the characters `_ @ % + = : , . /` and minus (the pattern in `shlex._find_unsafe`). -/
def shSafe (c : Nat) : Bool :=
  (48 ≤ c && c ≤ 57) || (65 ≤ c && c ≤ 90) || (97 ≤ c && c ≤ 122) || c == 95 ||
  c == 64 || c == 37 || c == 43 || c == 61 || c == 58 || c == 44 || c == 46 || c == 47 || c == 45

/-- `s.replace("'", "'\"'\"'")`. -/
def escQuote : Str → Str
  | [] => []
  | c :: cs => if c = 39 then [39, 34, 39, 34, 39] ++ escQuote cs else c :: escQuote cs

/-- `shlex.quote(s)` (used at /repo/src/ansibug/_debug_adapter.py:523-524). -/
def shQuote (s : Str) : Str :=
  if s = [] then [39, 39]
  else if s.all shSafe then s
  else [39] ++ escQuote s ++ [39]

end Verif.Launch
