import Mathlib.Data.List.Basic
/-
Model of the bit rate tables.
/repo/includes/acl/core/impl/variable_bit_rates.h
/repo/includes/acl/compression/impl/write_stream_data.h
-/
namespace Acl

/-- core/impl/variable_bit_rates.h:42 `k_bit_rate_num_bits_v0` (ACL 2.0). -/
def kBitRateNumBitsV0 : List Nat := [0, 3, 4, 5, 6, 7, 8, 9, 10, 11, 12, 13, 14, 15, 16, 17, 18, 19, 32]

/-- core/impl/variable_bit_rates.h:45 `k_bit_rate_num_bits` (ACL 2.1 and later). -/
def kBitRateNumBits : List Nat :=
  [0, 1, 2, 3, 4, 5, 6, 7, 8, 9, 10, 11, 12, 13, 14, 15, 16, 17, 18, 19, 20, 21, 22, 23, 32]

/-- core/impl/variable_bit_rates.h:48 -/
def kInvalidBitRate : Nat := 0xFF
/-- core/impl/variable_bit_rates.h:49 -/
def kLowestBitRate : Nat := 1
/-- core/impl/variable_bit_rates.h:50 `sizeof(k_bit_rate_num_bits) - 1`. -/
def kHighestBitRate : Nat := kBitRateNumBits.length - 1
/-- core/impl/variable_bit_rates.h:51 `sizeof(k_bit_rate_num_bits)`. -/
def kNumBitRates : Nat := kBitRateNumBits.length

/-- core/impl/variable_bit_rates.h:55-59 `get_num_bits_at_bit_rate`; the failed assert is `none`. -/
def getNumBitsAtBitRate (bitRate : Nat) : Option Nat :=
  if bitRate ≤ kHighestBitRate then kBitRateNumBits[bitRate]? else none

/-- core/impl/variable_bit_rates.h:62 `is_constant_bit_rate`. -/
def isConstantBitRate (bitRate : Nat) : Bool := bitRate == 0

/-- core/impl/variable_bit_rates.h:63 `is_raw_bit_rate`. -/
def isRawBitRate (bitRate : Nat) : Bool := bitRate == kHighestBitRate

/-- compression/impl/write_stream_data.h:497-511: the byte of a variable sub-track in the format data of a
segment; `none` for the failed assert of `get_num_bits_at_bit_rate`. -/
def formatByte (bitRate : Nat) : Option (BitVec 8) :=
  (getNumBitsAtBitRate bitRate).bind fun numBits =>
  some (if bitRate = kHighestBitRate then 31#8 else BitVec.ofNat 8 numBits)

/-- The table a decoder of scalar tracks uses (decompression.scalar.h:259-260, 516-517); version 2.0 or a
later one. -/
def scalarBitRateTable (isV2_0 : Bool) : List Nat := if isV2_0 then kBitRateNumBitsV0 else kBitRateNumBits

end Acl
