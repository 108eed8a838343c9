-- Generated by tools/rust2lean.py from /repo/src. Do not edit.
import Verif.Source.Syntax

/-! The constants and functions of `src/aes.rs`. -/

namespace Verif.Source.Gen

set_option maxRecDepth 8192

/-- src/aes.rs:13-13
```
pub const BLOCK_SIZE: usize = 16;
``` -/
def const_aes_BLOCK_SIZE : Expr :=
  .int .usize 16

/-- src/aes.rs:14-14
```
const NB: usize = 4;
``` -/
def const_aes_NB : Expr :=
  .int .usize 4

/-- src/aes.rs:19-36
```
const SBOX: [u8; 256] = [
    0x63, 0x7c, 0x77, 0x7b, 0xf2, 0x6b, 0x6f, 0xc5, 0x30, 0x01, 0x67, 0x2b, 0xfe, 0xd7, 0xab, 0x76,
    0xca, 0x82, 0xc9, 0x7d, 0xfa, 0x59, 0x47, 0xf0, 0xad, 0xd4, 0xa2, 0xaf, 0x9c, 0xa4, 0x72, 0xc0,
    0xb7, 0xfd, 0x93, 0x26, 0x36, 0x3f, 0xf7, 0xcc, 0x34, 0xa5, 0xe5, 0xf1, 0x71, 0xd8, 0x31, 0x15,
    0x04, 0xc7, 0x23, 0xc3, 0x18, 0x96, 0x05, 0x9a, 0x07, 0x12, 0x80, 0xe2, 0xeb, 0x27, 0xb2, 0x75,
    0x09, 0x83, 0x2c, 0x1a, 0x1b, 0x6e, 0x5a, 0xa0, 0x52, 0x3b, 0xd6, 0xb3, 0x29, 0xe3, 0x2f, 0x84,
    0x53, 0xd1, 0x00, 0xed, 0x20, 0xfc, 0xb1, 0x5b, 0x6a, 0xcb, 0xbe, 0x39, 0x4a, 0x4c, 0x58, 0xcf,
    0xd0, 0xef, 0xaa, 0xfb, 0x43, 0x4d, 0x33, 0x85, 0x45, 0xf9, 0x02, 0x7f, 0x50, 0x3c, 0x9f, 0xa8,
    0x51, 0xa3, 0x40, 0x8f, 0x92, 0x9d, 0x38, 0xf5, 0xbc, 0xb6, 0xda, 0x21, 0x10, 0xff, 0xf3, 0xd2,
    0xcd, 0x0c, 0x13, 0xec, 0x5f, 0x97, 0x44, 0x17, 0xc4, 0xa7, 0x7e, 0x3d, 0x64, 0x5d, 0x19, 0x73,
    0x60, 0x81, 0x4f, 0xdc, 0x22, 0x2a, 0x90, 0x88, 0x46, 0xee, 0xb8, 0x14, 0xde, 0x5e, 0x0b, 0xdb,
    0xe0, 0x32, 0x3a, 0x0a, 0x49, 0x06, 0x24, 0x5c, 0xc2, 0xd3, 0xac, 0x62, 0x91, 0x95, 0xe4, 0x79,
    0xe7, 0xc8, 0x37, 0x6d, 0x8d, 0xd5, 0x4e, 0xa9, 0x6c, 0x56, 0xf4, 0xea, 0x65, 0x7a, 0xae, 0x08,
    0xba, 0x78, 0x25, 0x2e, 0x1c, 0xa6, 0xb4, 0xc6, 0xe8, 0xdd, 0x74, 0x1f, 0x4b, 0xbd, 0x8b, 0x8a,
    0x70, 0x3e, 0xb5, 0x66, 0x48, 0x03, 0xf6, 0x0e, 0x61, 0x35, 0x57, 0xb9, 0x86, 0xc1, 0x1d, 0x9e,
    0xe1, 0xf8, 0x98, 0x11, 0x69, 0xd9, 0x8e, 0x94, 0x9b, 0x1e, 0x87, 0xe9, 0xce, 0x55, 0x28, 0xdf,
    0x8c, 0xa1, 0x89, 0x0d, 0xbf, 0xe6, 0x42, 0x68, 0x41, 0x99, 0x2d, 0x0f, 0xb0, 0x54, 0xbb, 0x16,
];
``` -/
def const_aes_SBOX : Expr :=
  .array
    [.int .u8 99, .int .u8 124, .int .u8 119, .int .u8 123, .int .u8 242, .int .u8 107, .int .u8 111,
     .int .u8 197, .int .u8 48, .int .u8 1, .int .u8 103, .int .u8 43, .int .u8 254, .int .u8 215,
     .int .u8 171, .int .u8 118, .int .u8 202, .int .u8 130, .int .u8 201, .int .u8 125, .int .u8 250,
     .int .u8 89, .int .u8 71, .int .u8 240, .int .u8 173, .int .u8 212, .int .u8 162, .int .u8 175,
     .int .u8 156, .int .u8 164, .int .u8 114, .int .u8 192, .int .u8 183, .int .u8 253, .int .u8 147,
     .int .u8 38, .int .u8 54, .int .u8 63, .int .u8 247, .int .u8 204, .int .u8 52, .int .u8 165,
     .int .u8 229, .int .u8 241, .int .u8 113, .int .u8 216, .int .u8 49, .int .u8 21, .int .u8 4,
     .int .u8 199, .int .u8 35, .int .u8 195, .int .u8 24, .int .u8 150, .int .u8 5, .int .u8 154,
     .int .u8 7, .int .u8 18, .int .u8 128, .int .u8 226, .int .u8 235, .int .u8 39, .int .u8 178,
     .int .u8 117, .int .u8 9, .int .u8 131, .int .u8 44, .int .u8 26, .int .u8 27, .int .u8 110,
     .int .u8 90, .int .u8 160, .int .u8 82, .int .u8 59, .int .u8 214, .int .u8 179, .int .u8 41,
     .int .u8 227, .int .u8 47, .int .u8 132, .int .u8 83, .int .u8 209, .int .u8 0, .int .u8 237,
     .int .u8 32, .int .u8 252, .int .u8 177, .int .u8 91, .int .u8 106, .int .u8 203, .int .u8 190,
     .int .u8 57, .int .u8 74, .int .u8 76, .int .u8 88, .int .u8 207, .int .u8 208, .int .u8 239,
     .int .u8 170, .int .u8 251, .int .u8 67, .int .u8 77, .int .u8 51, .int .u8 133, .int .u8 69,
     .int .u8 249, .int .u8 2, .int .u8 127, .int .u8 80, .int .u8 60, .int .u8 159, .int .u8 168,
     .int .u8 81, .int .u8 163, .int .u8 64, .int .u8 143, .int .u8 146, .int .u8 157, .int .u8 56,
     .int .u8 245, .int .u8 188, .int .u8 182, .int .u8 218, .int .u8 33, .int .u8 16, .int .u8 255,
     .int .u8 243, .int .u8 210, .int .u8 205, .int .u8 12, .int .u8 19, .int .u8 236, .int .u8 95,
     .int .u8 151, .int .u8 68, .int .u8 23, .int .u8 196, .int .u8 167, .int .u8 126, .int .u8 61,
     .int .u8 100, .int .u8 93, .int .u8 25, .int .u8 115, .int .u8 96, .int .u8 129, .int .u8 79,
     .int .u8 220, .int .u8 34, .int .u8 42, .int .u8 144, .int .u8 136, .int .u8 70, .int .u8 238,
     .int .u8 184, .int .u8 20, .int .u8 222, .int .u8 94, .int .u8 11, .int .u8 219, .int .u8 224,
     .int .u8 50, .int .u8 58, .int .u8 10, .int .u8 73, .int .u8 6, .int .u8 36, .int .u8 92,
     .int .u8 194, .int .u8 211, .int .u8 172, .int .u8 98, .int .u8 145, .int .u8 149, .int .u8 228,
     .int .u8 121, .int .u8 231, .int .u8 200, .int .u8 55, .int .u8 109, .int .u8 141, .int .u8 213,
     .int .u8 78, .int .u8 169, .int .u8 108, .int .u8 86, .int .u8 244, .int .u8 234, .int .u8 101,
     .int .u8 122, .int .u8 174, .int .u8 8, .int .u8 186, .int .u8 120, .int .u8 37, .int .u8 46,
     .int .u8 28, .int .u8 166, .int .u8 180, .int .u8 198, .int .u8 232, .int .u8 221, .int .u8 116,
     .int .u8 31, .int .u8 75, .int .u8 189, .int .u8 139, .int .u8 138, .int .u8 112, .int .u8 62,
     .int .u8 181, .int .u8 102, .int .u8 72, .int .u8 3, .int .u8 246, .int .u8 14, .int .u8 97,
     .int .u8 53, .int .u8 87, .int .u8 185, .int .u8 134, .int .u8 193, .int .u8 29, .int .u8 158,
     .int .u8 225, .int .u8 248, .int .u8 152, .int .u8 17, .int .u8 105, .int .u8 217, .int .u8 142,
     .int .u8 148, .int .u8 155, .int .u8 30, .int .u8 135, .int .u8 233, .int .u8 206, .int .u8 85,
     .int .u8 40, .int .u8 223, .int .u8 140, .int .u8 161, .int .u8 137, .int .u8 13, .int .u8 191,
     .int .u8 230, .int .u8 66, .int .u8 104, .int .u8 65, .int .u8 153, .int .u8 45, .int .u8 15,
     .int .u8 176, .int .u8 84, .int .u8 187, .int .u8 22]

/-- src/aes.rs:38-55
```
const INV_SBOX: [u8; 256] = [
    0x52, 0x09, 0x6a, 0xd5, 0x30, 0x36, 0xa5, 0x38, 0xbf, 0x40, 0xa3, 0x9e, 0x81, 0xf3, 0xd7, 0xfb,
    0x7c, 0xe3, 0x39, 0x82, 0x9b, 0x2f, 0xff, 0x87, 0x34, 0x8e, 0x43, 0x44, 0xc4, 0xde, 0xe9, 0xcb,
    0x54, 0x7b, 0x94, 0x32, 0xa6, 0xc2, 0x23, 0x3d, 0xee, 0x4c, 0x95, 0x0b, 0x42, 0xfa, 0xc3, 0x4e,
    0x08, 0x2e, 0xa1, 0x66, 0x28, 0xd9, 0x24, 0xb2, 0x76, 0x5b, 0xa2, 0x49, 0x6d, 0x8b, 0xd1, 0x25,
    0x72, 0xf8, 0xf6, 0x64, 0x86, 0x68, 0x98, 0x16, 0xd4, 0xa4, 0x5c, 0xcc, 0x5d, 0x65, 0xb6, 0x92,
    0x6c, 0x70, 0x48, 0x50, 0xfd, 0xed, 0xb9, 0xda, 0x5e, 0x15, 0x46, 0x57, 0xa7, 0x8d, 0x9d, 0x84,
    0x90, 0xd8, 0xab, 0x00, 0x8c, 0xbc, 0xd3, 0x0a, 0xf7, 0xe4, 0x58, 0x05, 0xb8, 0xb3, 0x45, 0x06,
    0xd0, 0x2c, 0x1e, 0x8f, 0xca, 0x3f, 0x0f, 0x02, 0xc1, 0xaf, 0xbd, 0x03, 0x01, 0x13, 0x8a, 0x6b,
    0x3a, 0x91, 0x11, 0x41, 0x4f, 0x67, 0xdc, 0xea, 0x97, 0xf2, 0xcf, 0xce, 0xf0, 0xb4, 0xe6, 0x73,
    0x96, 0xac, 0x74, 0x22, 0xe7, 0xad, 0x35, 0x85, 0xe2, 0xf9, 0x37, 0xe8, 0x1c, 0x75, 0xdf, 0x6e,
    0x47, 0xf1, 0x1a, 0x71, 0x1d, 0x29, 0xc5, 0x89, 0x6f, 0xb7, 0x62, 0x0e, 0xaa, 0x18, 0xbe, 0x1b,
    0xfc, 0x56, 0x3e, 0x4b, 0xc6, 0xd2, 0x79, 0x20, 0x9a, 0xdb, 0xc0, 0xfe, 0x78, 0xcd, 0x5a, 0xf4,
    0x1f, 0xdd, 0xa8, 0x33, 0x88, 0x07, 0xc7, 0x31, 0xb1, 0x12, 0x10, 0x59, 0x27, 0x80, 0xec, 0x5f,
    0x60, 0x51, 0x7f, 0xa9, 0x19, 0xb5, 0x4a, 0x0d, 0x2d, 0xe5, 0x7a, 0x9f, 0x93, 0xc9, 0x9c, 0xef,
    0xa0, 0xe0, 0x3b, 0x4d, 0xae, 0x2a, 0xf5, 0xb0, 0xc8, 0xeb, 0xbb, 0x3c, 0x83, 0x53, 0x99, 0x61,
    0x17, 0x2b, 0x04, 0x7e, 0xba, 0x77, 0xd6, 0x26, 0xe1, 0x69, 0x14, 0x63, 0x55, 0x21, 0x0c, 0x7d,
];
``` -/
def const_aes_INV_SBOX : Expr :=
  .array
    [.int .u8 82, .int .u8 9, .int .u8 106, .int .u8 213, .int .u8 48, .int .u8 54, .int .u8 165,
     .int .u8 56, .int .u8 191, .int .u8 64, .int .u8 163, .int .u8 158, .int .u8 129, .int .u8 243,
     .int .u8 215, .int .u8 251, .int .u8 124, .int .u8 227, .int .u8 57, .int .u8 130, .int .u8 155,
     .int .u8 47, .int .u8 255, .int .u8 135, .int .u8 52, .int .u8 142, .int .u8 67, .int .u8 68,
     .int .u8 196, .int .u8 222, .int .u8 233, .int .u8 203, .int .u8 84, .int .u8 123, .int .u8 148,
     .int .u8 50, .int .u8 166, .int .u8 194, .int .u8 35, .int .u8 61, .int .u8 238, .int .u8 76,
     .int .u8 149, .int .u8 11, .int .u8 66, .int .u8 250, .int .u8 195, .int .u8 78, .int .u8 8,
     .int .u8 46, .int .u8 161, .int .u8 102, .int .u8 40, .int .u8 217, .int .u8 36, .int .u8 178,
     .int .u8 118, .int .u8 91, .int .u8 162, .int .u8 73, .int .u8 109, .int .u8 139, .int .u8 209,
     .int .u8 37, .int .u8 114, .int .u8 248, .int .u8 246, .int .u8 100, .int .u8 134, .int .u8 104,
     .int .u8 152, .int .u8 22, .int .u8 212, .int .u8 164, .int .u8 92, .int .u8 204, .int .u8 93,
     .int .u8 101, .int .u8 182, .int .u8 146, .int .u8 108, .int .u8 112, .int .u8 72, .int .u8 80,
     .int .u8 253, .int .u8 237, .int .u8 185, .int .u8 218, .int .u8 94, .int .u8 21, .int .u8 70,
     .int .u8 87, .int .u8 167, .int .u8 141, .int .u8 157, .int .u8 132, .int .u8 144, .int .u8 216,
     .int .u8 171, .int .u8 0, .int .u8 140, .int .u8 188, .int .u8 211, .int .u8 10, .int .u8 247,
     .int .u8 228, .int .u8 88, .int .u8 5, .int .u8 184, .int .u8 179, .int .u8 69, .int .u8 6,
     .int .u8 208, .int .u8 44, .int .u8 30, .int .u8 143, .int .u8 202, .int .u8 63, .int .u8 15,
     .int .u8 2, .int .u8 193, .int .u8 175, .int .u8 189, .int .u8 3, .int .u8 1, .int .u8 19,
     .int .u8 138, .int .u8 107, .int .u8 58, .int .u8 145, .int .u8 17, .int .u8 65, .int .u8 79,
     .int .u8 103, .int .u8 220, .int .u8 234, .int .u8 151, .int .u8 242, .int .u8 207, .int .u8 206,
     .int .u8 240, .int .u8 180, .int .u8 230, .int .u8 115, .int .u8 150, .int .u8 172, .int .u8 116,
     .int .u8 34, .int .u8 231, .int .u8 173, .int .u8 53, .int .u8 133, .int .u8 226, .int .u8 249,
     .int .u8 55, .int .u8 232, .int .u8 28, .int .u8 117, .int .u8 223, .int .u8 110, .int .u8 71,
     .int .u8 241, .int .u8 26, .int .u8 113, .int .u8 29, .int .u8 41, .int .u8 197, .int .u8 137,
     .int .u8 111, .int .u8 183, .int .u8 98, .int .u8 14, .int .u8 170, .int .u8 24, .int .u8 190,
     .int .u8 27, .int .u8 252, .int .u8 86, .int .u8 62, .int .u8 75, .int .u8 198, .int .u8 210,
     .int .u8 121, .int .u8 32, .int .u8 154, .int .u8 219, .int .u8 192, .int .u8 254, .int .u8 120,
     .int .u8 205, .int .u8 90, .int .u8 244, .int .u8 31, .int .u8 221, .int .u8 168, .int .u8 51,
     .int .u8 136, .int .u8 7, .int .u8 199, .int .u8 49, .int .u8 177, .int .u8 18, .int .u8 16,
     .int .u8 89, .int .u8 39, .int .u8 128, .int .u8 236, .int .u8 95, .int .u8 96, .int .u8 81,
     .int .u8 127, .int .u8 169, .int .u8 25, .int .u8 181, .int .u8 74, .int .u8 13, .int .u8 45,
     .int .u8 229, .int .u8 122, .int .u8 159, .int .u8 147, .int .u8 201, .int .u8 156, .int .u8 239,
     .int .u8 160, .int .u8 224, .int .u8 59, .int .u8 77, .int .u8 174, .int .u8 42, .int .u8 245,
     .int .u8 176, .int .u8 200, .int .u8 235, .int .u8 187, .int .u8 60, .int .u8 131, .int .u8 83,
     .int .u8 153, .int .u8 97, .int .u8 23, .int .u8 43, .int .u8 4, .int .u8 126, .int .u8 186,
     .int .u8 119, .int .u8 214, .int .u8 38, .int .u8 225, .int .u8 105, .int .u8 20, .int .u8 99,
     .int .u8 85, .int .u8 33, .int .u8 12, .int .u8 125]

/-- src/aes.rs:60-71
```
const RCON: [u32; 10] = [
    0x0100_0000,
    0x0200_0000,
    0x0400_0000,
    0x0800_0000,
    0x1000_0000,
    0x2000_0000,
    0x4000_0000,
    0x8000_0000,
    0x1b00_0000,
    0x3600_0000,
];
``` -/
def const_aes_RCON : Expr :=
  .array
    [.int .u32 16777216, .int .u32 33554432, .int .u32 67108864, .int .u32 134217728, .int .u32 268435456,
     .int .u32 536870912, .int .u32 1073741824, .int .u32 2147483648, .int .u32 452984832,
     .int .u32 905969664]

/-- src/aes.rs:74-80
```
fn double(b: u8) -> u8 {
    if (b & 0x80) == 0 {
        b << 1
    } else {
        (b << 1) ^ 0x1b
    }
}
``` -/
def fn_aes_double : FnDef where
  params := [(.b, .val)]
  body :=
    .block []
      (.ite (.bin .eq (.bin .and (.var .b) (.int .u8 128)) (.int .u8 0))
         (.block [] (.bin .shl (.var .b) (.int .i32 1)))
         (.block [] (.bin .xor (.bin .shl (.var .b) (.int .i32 1)) (.int .u8 27))))

/-- src/aes.rs:83-94
```
fn mul(b: u8, mut by: usize) -> u8 {
    let mut res: u8 = 0;
    let mut power = b;
    while by != 0 {
        if (by & 1) != 0 {
            res ^= power;
        }
        power = double(power);
        by >>= 1;
    }
    res
}
``` -/
def fn_aes_mul : FnDef where
  params := [(.b, .val), (.«by», .val)]
  body :=
    .block
      [.let (.var .res) (.int .u8 0),
       .let (.var .power) (.var .b),
       .while (.bin .ne (.var .«by») (.int .usize 0))
         (.block
            [.ite (.bin .ne (.bin .and (.var .«by») (.int .usize 1)) (.int .usize 0))
               (.block [.assignOp .xor (.var .res) (.var .power)] .unit)
               .unit,
             .assign (.var .power) (.call .aes_double [.var .power]),
             .assignOp .shr (.var .«by») (.int .i32 1)]
            .unit)]
      (.var .res)

/-- src/aes.rs:96-106
```
fn sub_word(b: u32) -> u32 {
    let b0 = (b >> 24) as usize;
    let b1 = ((b >> 16) & 0xff) as usize;
    let b2 = ((b >> 8) & 0xff) as usize;
    let b3 = (b & 0xff) as usize;
    (u32::from(SBOX[b0]) << 24)
        | (u32::from(SBOX[b1]) << 16)
        | (u32::from(SBOX[b2]) << 8)
        | u32::from(SBOX[b3])
}
``` -/
def fn_aes_sub_word : FnDef where
  params := [(.b, .val)]
  body :=
    .block
      [.let (.var .b0) (.cast (.bin .shr (.var .b) (.int .i32 24)) .usize),
       .let (.var .b1) (.cast (.bin .and (.bin .shr (.var .b) (.int .i32 16)) (.int .u32 255)) .usize),
       .let (.var .b2) (.cast (.bin .and (.bin .shr (.var .b) (.int .i32 8)) (.int .u32 255)) .usize),
       .let (.var .b3) (.cast (.bin .and (.var .b) (.int .u32 255)) .usize)]
      (.bin .or
         (.bin .or
            (.bin .or (.bin .shl (.from .u32 (.index (.const .aes_SBOX) (.var .b0))) (.int .i32 24))
               (.bin .shl (.from .u32 (.index (.const .aes_SBOX) (.var .b1))) (.int .i32 16)))
            (.bin .shl (.from .u32 (.index (.const .aes_SBOX) (.var .b2))) (.int .i32 8)))
         (.from .u32 (.index (.const .aes_SBOX) (.var .b3))))

/-- src/aes.rs:108-110
```
fn rot_word(b: u32) -> u32 {
    (b << 8) | (b >> 24)
}
``` -/
def fn_aes_rot_word : FnDef where
  params := [(.b, .val)]
  body :=
    .block [] (.bin .or (.bin .shl (.var .b) (.int .i32 8)) (.bin .shr (.var .b) (.int .i32 24)))

/-- src/aes.rs:112-160
```
fn expand_key(key: &[u8], round_count: usize) -> Vec<u32> {
    let nk = key.len() / 4;
    let mut w = Vec::with_capacity(NB * (round_count + 1));
    let mut i: usize = 0;
    while i < nk {
        w.push(
            (u32::from(key[4 * i]) << 24)
                | (u32::from(key[4 * i + 1]) << 16)
                | (u32::from(key[4 * i + 2]) << 8)
                | u32::from(key[4 * i + 3]),
        );
        i += 1;
    }
    while i < NB * (round_count + 1) {
        let mut temp = w[i - 1];
        if i % nk == 0 {
            temp = sub_word(rot_word(temp)) ^ RCON[i / nk - 1];
        } else if nk > 6 && i % nk == 4 {
            temp = sub_word(temp);
        }
        w.push(w[i - nk] ^ temp);
        i += 1;
    }
    w
}
``` -/
def fn_aes_expand_key : FnDef where
  params := [(.key, .val), (.round_count, .val)]
  body :=
    .block
      [.let (.var .nk) (.bin .div (.prim .len [.var .key]) (.int .usize 4)),
       .let (.var .w)
         (.prim (.withCapacity .u32)
            [.bin .mul (.const .aes_NB) (.bin .add (.var .round_count) (.int .usize 1))]),
       .let (.var .i) (.int .usize 0),
       .while (.bin .lt (.var .i) (.var .nk))
         (.block
            [.mutPrim .push (.var .w)
               [.bin .or
                  (.bin .or
                     (.bin .or
                        (.bin .shl (.from .u32 (.index (.var .key) (.bin .mul (.int .usize 4) (.var .i)))) (.int .i32 24))
                        (.bin .shl
                           (.from .u32 (.index (.var .key) (.bin .add (.bin .mul (.int .usize 4) (.var .i)) (.int .usize 1))))
                           (.int .i32 16)))
                     (.bin .shl
                        (.from .u32 (.index (.var .key) (.bin .add (.bin .mul (.int .usize 4) (.var .i)) (.int .usize 2))))
                        (.int .i32 8)))
                  (.from .u32 (.index (.var .key) (.bin .add (.bin .mul (.int .usize 4) (.var .i)) (.int .usize 3))))],
             .assignOp .add (.var .i) (.int .usize 1)]
            .unit),
       .while
         (.bin .lt (.var .i) (.bin .mul (.const .aes_NB) (.bin .add (.var .round_count) (.int .usize 1))))
         (.block
            [.let (.var .temp) (.index (.var .w) (.bin .sub (.var .i) (.int .usize 1))),
             .ite (.bin .eq (.bin .rem (.var .i) (.var .nk)) (.int .usize 0))
               (.block
                  [.assign (.var .temp)
                     (.bin .xor (.call .aes_sub_word [.call .aes_rot_word [.var .temp]])
                        (.index (.const .aes_RCON) (.bin .sub (.bin .div (.var .i) (.var .nk)) (.int .usize 1))))]
                  .unit)
               (.ite
                  (.andAlso (.bin .gt (.var .nk) (.int .usize 6))
                     (.bin .eq (.bin .rem (.var .i) (.var .nk)) (.int .usize 4)))
                  (.block [.assign (.var .temp) (.call .aes_sub_word [.var .temp])] .unit)
                  .unit),
             .mutPrim .push (.var .w)
               [.bin .xor (.index (.var .w) (.bin .sub (.var .i) (.var .nk))) (.var .temp)],
             .assignOp .add (.var .i) (.int .usize 1)]
            .unit)]
      (.var .w)

/-- src/aes.rs:169-176
```
fn add_round_key(s: &mut Block, round_key: &[u32]) {
    for (col, &key) in s.iter_mut().zip(round_key) {
        col[0] ^= (key >> 24) as u8;
        col[1] ^= ((key >> 16) & 0xff) as u8;
        col[2] ^= ((key >> 8) & 0xff) as u8;
        col[3] ^= (key & 0xff) as u8;
    }
}
``` -/
def fn_aes_AESDecrypt_add_round_key : FnDef where
  params := [(.s, .mutRef), (.round_key, .val)]
  body :=
    .block []
      (.forMutZip .col (.var .key) (.var .s) (.var .round_key)
         (.block
            [.assignOp .xor (.index (.var .col) (.int .usize 0))
               (.cast (.bin .shr (.var .key) (.int .i32 24)) .u8),
             .assignOp .xor (.index (.var .col) (.int .usize 1))
               (.cast (.bin .and (.bin .shr (.var .key) (.int .i32 16)) (.int .u32 255)) .u8),
             .assignOp .xor (.index (.var .col) (.int .usize 2))
               (.cast (.bin .and (.bin .shr (.var .key) (.int .i32 8)) (.int .u32 255)) .u8),
             .assignOp .xor (.index (.var .col) (.int .usize 3))
               (.cast (.bin .and (.var .key) (.int .u32 255)) .u8)]
            .unit))

/-- src/aes.rs:169-176
```
fn add_round_key(s: &mut Block, round_key: &[u32]) {
    for (col, &key) in s.iter_mut().zip(round_key) {
        col[0] ^= (key >> 24) as u8;
        col[1] ^= ((key >> 16) & 0xff) as u8;
        col[2] ^= ((key >> 8) & 0xff) as u8;
        col[3] ^= (key & 0xff) as u8;
    }
}
``` -/
def fn_aes_AESEncrypt_add_round_key : FnDef where
  params := [(.s, .mutRef), (.round_key, .val)]
  body :=
    .block []
      (.forMutZip .col (.var .key) (.var .s) (.var .round_key)
         (.block
            [.assignOp .xor (.index (.var .col) (.int .usize 0))
               (.cast (.bin .shr (.var .key) (.int .i32 24)) .u8),
             .assignOp .xor (.index (.var .col) (.int .usize 1))
               (.cast (.bin .and (.bin .shr (.var .key) (.int .i32 16)) (.int .u32 255)) .u8),
             .assignOp .xor (.index (.var .col) (.int .usize 2))
               (.cast (.bin .and (.bin .shr (.var .key) (.int .i32 8)) (.int .u32 255)) .u8),
             .assignOp .xor (.index (.var .col) (.int .usize 3))
               (.cast (.bin .and (.var .key) (.int .u32 255)) .u8)]
            .unit))

/-- src/aes.rs:178-184
```
fn sub_bytes(s: &mut Block) {
    for col in s.iter_mut() {
        for cell in col.iter_mut() {
            *cell = Self::lookup_sbox(*cell);
        }
    }
}
``` -/
def fn_aes_AESDecrypt_sub_bytes : FnDef where
  params := [(.s, .mutRef)]
  body :=
    .block []
      (.forMut .col (.var .s)
         (.block []
            (.forMut .cell (.var .col)
               (.block [.assign (.var .cell) (.call .aes_AESDecrypt_lookup_sbox [.var .cell])] .unit))))

/-- src/aes.rs:178-184
```
fn sub_bytes(s: &mut Block) {
    for col in s.iter_mut() {
        for cell in col.iter_mut() {
            *cell = Self::lookup_sbox(*cell);
        }
    }
}
``` -/
def fn_aes_AESEncrypt_sub_bytes : FnDef where
  params := [(.s, .mutRef)]
  body :=
    .block []
      (.forMut .col (.var .s)
         (.block []
            (.forMut .cell (.var .col)
               (.block [.assign (.var .cell) (.call .aes_AESEncrypt_lookup_sbox [.var .cell])] .unit))))

/-- src/aes.rs:186-190
```
fn mix_columns(s: &mut Block) {
    for column in s.iter_mut() {
        *column = Self::mix_column(*column);
    }
}
``` -/
def fn_aes_AESDecrypt_mix_columns : FnDef where
  params := [(.s, .mutRef)]
  body :=
    .block []
      (.forMut .column (.var .s)
         (.block [.assign (.var .column) (.call .aes_AESDecrypt_mix_column [.var .column])] .unit))

/-- src/aes.rs:186-190
```
fn mix_columns(s: &mut Block) {
    for column in s.iter_mut() {
        *column = Self::mix_column(*column);
    }
}
``` -/
def fn_aes_AESEncrypt_mix_columns : FnDef where
  params := [(.s, .mutRef)]
  body :=
    .block []
      (.forMut .column (.var .s)
         (.block [.assign (.var .column) (.call .aes_AESEncrypt_mix_column [.var .column])] .unit))

/-- src/aes.rs:197-199
```
fn lookup_sbox(b: u8) -> u8 {
    SBOX[usize::from(b)]
}
``` -/
def fn_aes_AESEncrypt_lookup_sbox : FnDef where
  params := [(.b, .val)]
  body :=
    .block [] (.index (.const .aes_SBOX) (.from .usize (.var .b)))

/-- src/aes.rs:201-208
```
fn mix_column(col: [u8; 4]) -> [u8; 4] {
    [
        mul(col[0], 2) ^ mul(col[1], 3) ^ col[2] ^ col[3],
        mul(col[1], 2) ^ mul(col[2], 3) ^ col[3] ^ col[0],
        mul(col[2], 2) ^ mul(col[3], 3) ^ col[0] ^ col[1],
        mul(col[3], 2) ^ mul(col[0], 3) ^ col[1] ^ col[2],
    ]
}
``` -/
def fn_aes_AESEncrypt_mix_column : FnDef where
  params := [(.col, .val)]
  body :=
    .block []
      (.array
         [.bin .xor
            (.bin .xor
               (.bin .xor (.call .aes_mul [.index (.var .col) (.int .usize 0), .int .usize 2])
                  (.call .aes_mul [.index (.var .col) (.int .usize 1), .int .usize 3]))
               (.index (.var .col) (.int .usize 2)))
            (.index (.var .col) (.int .usize 3)),
          .bin .xor
            (.bin .xor
               (.bin .xor (.call .aes_mul [.index (.var .col) (.int .usize 1), .int .usize 2])
                  (.call .aes_mul [.index (.var .col) (.int .usize 2), .int .usize 3]))
               (.index (.var .col) (.int .usize 3)))
            (.index (.var .col) (.int .usize 0)),
          .bin .xor
            (.bin .xor
               (.bin .xor (.call .aes_mul [.index (.var .col) (.int .usize 2), .int .usize 2])
                  (.call .aes_mul [.index (.var .col) (.int .usize 3), .int .usize 3]))
               (.index (.var .col) (.int .usize 0)))
            (.index (.var .col) (.int .usize 1)),
          .bin .xor
            (.bin .xor
               (.bin .xor (.call .aes_mul [.index (.var .col) (.int .usize 3), .int .usize 2])
                  (.call .aes_mul [.index (.var .col) (.int .usize 0), .int .usize 3]))
               (.index (.var .col) (.int .usize 1)))
            (.index (.var .col) (.int .usize 2))])

/-- src/aes.rs:210-217
```
fn shift_rows(s: &Block) -> Block {
    [
        [s[0][0], s[1][1], s[2][2], s[3][3]],
        [s[1][0], s[2][1], s[3][2], s[0][3]],
        [s[2][0], s[3][1], s[0][2], s[1][3]],
        [s[3][0], s[0][1], s[1][2], s[2][3]],
    ]
}
``` -/
def fn_aes_AESEncrypt_shift_rows : FnDef where
  params := [(.s, .val)]
  body :=
    .block []
      (.array
         [.array
            [.index (.index (.var .s) (.int .usize 0)) (.int .usize 0),
             .index (.index (.var .s) (.int .usize 1)) (.int .usize 1),
             .index (.index (.var .s) (.int .usize 2)) (.int .usize 2),
             .index (.index (.var .s) (.int .usize 3)) (.int .usize 3)],
          .array
            [.index (.index (.var .s) (.int .usize 1)) (.int .usize 0),
             .index (.index (.var .s) (.int .usize 2)) (.int .usize 1),
             .index (.index (.var .s) (.int .usize 3)) (.int .usize 2),
             .index (.index (.var .s) (.int .usize 0)) (.int .usize 3)],
          .array
            [.index (.index (.var .s) (.int .usize 2)) (.int .usize 0),
             .index (.index (.var .s) (.int .usize 3)) (.int .usize 1),
             .index (.index (.var .s) (.int .usize 0)) (.int .usize 2),
             .index (.index (.var .s) (.int .usize 1)) (.int .usize 3)],
          .array
            [.index (.index (.var .s) (.int .usize 3)) (.int .usize 0),
             .index (.index (.var .s) (.int .usize 0)) (.int .usize 1),
             .index (.index (.var .s) (.int .usize 1)) (.int .usize 2),
             .index (.index (.var .s) (.int .usize 2)) (.int .usize 3)]])

/-- src/aes.rs:221-223
```
fn lookup_sbox(b: u8) -> u8 {
    INV_SBOX[usize::from(b)]
}
``` -/
def fn_aes_AESDecrypt_lookup_sbox : FnDef where
  params := [(.b, .val)]
  body :=
    .block [] (.index (.const .aes_INV_SBOX) (.from .usize (.var .b)))

/-- src/aes.rs:225-232
```
fn mix_column(col: [u8; 4]) -> [u8; 4] {
    [
        mul(col[0], 0x0e) ^ mul(col[1], 0x0b) ^ mul(col[2], 0x0d) ^ mul(col[3], 0x09),
        mul(col[1], 0x0e) ^ mul(col[2], 0x0b) ^ mul(col[3], 0x0d) ^ mul(col[0], 0x09),
        mul(col[2], 0x0e) ^ mul(col[3], 0x0b) ^ mul(col[0], 0x0d) ^ mul(col[1], 0x09),
        mul(col[3], 0x0e) ^ mul(col[0], 0x0b) ^ mul(col[1], 0x0d) ^ mul(col[2], 0x09),
    ]
}
``` -/
def fn_aes_AESDecrypt_mix_column : FnDef where
  params := [(.col, .val)]
  body :=
    .block []
      (.array
         [.bin .xor
            (.bin .xor
               (.bin .xor (.call .aes_mul [.index (.var .col) (.int .usize 0), .int .usize 14])
                  (.call .aes_mul [.index (.var .col) (.int .usize 1), .int .usize 11]))
               (.call .aes_mul [.index (.var .col) (.int .usize 2), .int .usize 13]))
            (.call .aes_mul [.index (.var .col) (.int .usize 3), .int .usize 9]),
          .bin .xor
            (.bin .xor
               (.bin .xor (.call .aes_mul [.index (.var .col) (.int .usize 1), .int .usize 14])
                  (.call .aes_mul [.index (.var .col) (.int .usize 2), .int .usize 11]))
               (.call .aes_mul [.index (.var .col) (.int .usize 3), .int .usize 13]))
            (.call .aes_mul [.index (.var .col) (.int .usize 0), .int .usize 9]),
          .bin .xor
            (.bin .xor
               (.bin .xor (.call .aes_mul [.index (.var .col) (.int .usize 2), .int .usize 14])
                  (.call .aes_mul [.index (.var .col) (.int .usize 3), .int .usize 11]))
               (.call .aes_mul [.index (.var .col) (.int .usize 0), .int .usize 13]))
            (.call .aes_mul [.index (.var .col) (.int .usize 1), .int .usize 9]),
          .bin .xor
            (.bin .xor
               (.bin .xor (.call .aes_mul [.index (.var .col) (.int .usize 3), .int .usize 14])
                  (.call .aes_mul [.index (.var .col) (.int .usize 0), .int .usize 11]))
               (.call .aes_mul [.index (.var .col) (.int .usize 1), .int .usize 13]))
            (.call .aes_mul [.index (.var .col) (.int .usize 2), .int .usize 9])])

/-- src/aes.rs:234-241
```
fn shift_rows(s: &Block) -> Block {
    [
        [s[0][0], s[3][1], s[2][2], s[1][3]],
        [s[1][0], s[0][1], s[3][2], s[2][3]],
        [s[2][0], s[1][1], s[0][2], s[3][3]],
        [s[3][0], s[2][1], s[1][2], s[0][3]],
    ]
}
``` -/
def fn_aes_AESDecrypt_shift_rows : FnDef where
  params := [(.s, .val)]
  body :=
    .block []
      (.array
         [.array
            [.index (.index (.var .s) (.int .usize 0)) (.int .usize 0),
             .index (.index (.var .s) (.int .usize 3)) (.int .usize 1),
             .index (.index (.var .s) (.int .usize 2)) (.int .usize 2),
             .index (.index (.var .s) (.int .usize 1)) (.int .usize 3)],
          .array
            [.index (.index (.var .s) (.int .usize 1)) (.int .usize 0),
             .index (.index (.var .s) (.int .usize 0)) (.int .usize 1),
             .index (.index (.var .s) (.int .usize 3)) (.int .usize 2),
             .index (.index (.var .s) (.int .usize 2)) (.int .usize 3)],
          .array
            [.index (.index (.var .s) (.int .usize 2)) (.int .usize 0),
             .index (.index (.var .s) (.int .usize 1)) (.int .usize 1),
             .index (.index (.var .s) (.int .usize 0)) (.int .usize 2),
             .index (.index (.var .s) (.int .usize 3)) (.int .usize 3)],
          .array
            [.index (.index (.var .s) (.int .usize 3)) (.int .usize 0),
             .index (.index (.var .s) (.int .usize 2)) (.int .usize 1),
             .index (.index (.var .s) (.int .usize 1)) (.int .usize 2),
             .index (.index (.var .s) (.int .usize 0)) (.int .usize 3)]])

/-- src/aes.rs:244-251
```
fn to_block(b: &[u8; BLOCK_SIZE]) -> Block {
    [
        [b[0], b[1], b[2], b[3]],
        [b[4], b[5], b[6], b[7]],
        [b[8], b[9], b[10], b[11]],
        [b[12], b[13], b[14], b[15]],
    ]
}
``` -/
def fn_aes_to_block : FnDef where
  params := [(.b, .val)]
  body :=
    .block []
      (.array
         [.array
            [.index (.var .b) (.int .usize 0),
             .index (.var .b) (.int .usize 1),
             .index (.var .b) (.int .usize 2),
             .index (.var .b) (.int .usize 3)],
          .array
            [.index (.var .b) (.int .usize 4),
             .index (.var .b) (.int .usize 5),
             .index (.var .b) (.int .usize 6),
             .index (.var .b) (.int .usize 7)],
          .array
            [.index (.var .b) (.int .usize 8),
             .index (.var .b) (.int .usize 9),
             .index (.var .b) (.int .usize 10),
             .index (.var .b) (.int .usize 11)],
          .array
            [.index (.var .b) (.int .usize 12),
             .index (.var .b) (.int .usize 13),
             .index (.var .b) (.int .usize 14),
             .index (.var .b) (.int .usize 15)]])

/-- src/aes.rs:253-258
```
fn from_block(s: &Block) -> [u8; BLOCK_SIZE] {
    [
        s[0][0], s[0][1], s[0][2], s[0][3], s[1][0], s[1][1], s[1][2], s[1][3], s[2][0], s[2][1],
        s[2][2], s[2][3], s[3][0], s[3][1], s[3][2], s[3][3],
    ]
}
``` -/
def fn_aes_from_block : FnDef where
  params := [(.s, .val)]
  body :=
    .block []
      (.array
         [.index (.index (.var .s) (.int .usize 0)) (.int .usize 0),
          .index (.index (.var .s) (.int .usize 0)) (.int .usize 1),
          .index (.index (.var .s) (.int .usize 0)) (.int .usize 2),
          .index (.index (.var .s) (.int .usize 0)) (.int .usize 3),
          .index (.index (.var .s) (.int .usize 1)) (.int .usize 0),
          .index (.index (.var .s) (.int .usize 1)) (.int .usize 1),
          .index (.index (.var .s) (.int .usize 1)) (.int .usize 2),
          .index (.index (.var .s) (.int .usize 1)) (.int .usize 3),
          .index (.index (.var .s) (.int .usize 2)) (.int .usize 0),
          .index (.index (.var .s) (.int .usize 2)) (.int .usize 1),
          .index (.index (.var .s) (.int .usize 2)) (.int .usize 2),
          .index (.index (.var .s) (.int .usize 2)) (.int .usize 3),
          .index (.index (.var .s) (.int .usize 3)) (.int .usize 0),
          .index (.index (.var .s) (.int .usize 3)) (.int .usize 1),
          .index (.index (.var .s) (.int .usize 3)) (.int .usize 2),
          .index (.index (.var .s) (.int .usize 3)) (.int .usize 3)])

/-- src/aes.rs:272-274
```
fn fmt(&self, f: &mut fmt::Formatter) -> fmt::Result {
    write!(f, "AESError: {}", self.description())
}
``` -/
def fn_aes_AESError_fmt : FnDef where
  params := [(.self, .val), (.f, .mutRef)]
  body :=
    .block []
      (.mutPrim (.write "AESError: " "") (.var .f) [.call .aes_AESError_description [.var .self]])

/-- src/aes.rs:278-283
```
fn description(&self) -> &str {
    match self {
        AESError::InvalidKeySize => "key size must be either of: 128, 192, or 256 bits",
        AESError::NotInitialized => "AES instance must be initialized prior to use",
    }
}
``` -/
def fn_aes_AESError_description : FnDef where
  params := [(.self, .val)]
  body :=
    .block []
      (.match (.var .self) [(.ctor .AESError_InvalidKeySize []), (.ctor .AESError_NotInitialized [])]
         [.str "key size must be either of: 128, 192, or 256 bits",
          .str "AES instance must be initialized prior to use"])

/-- src/aes.rs:319-324
```
pub fn new() -> Self {
    AES {
        round_count: 0,
        round_keys: None,
    }
}
``` -/
def fn_aes_AES_new : FnDef where
  params := []
  body :=
    .block [] (.struct .AES [.round_count, .round_keys] [.int .usize 0, .ctor .None []])

/-- src/aes.rs:327-346
```
pub fn init(&mut self, key: &[u8]) -> Result<(), AESError> {
    self.round_count = match key.len() {
        16 => 10,
        24 => 12,
        32 => 14,
        _ => {
            return Err(AESError::InvalidKeySize);
        }
    };
    self.round_keys = Some(expand_key(key, self.round_count));
    Ok(())
}
``` -/
def fn_aes_AES_init : FnDef where
  params := [(.self, .mutRef), (.key, .val)]
  body :=
    .block
      [.assign (.field (.var .self) .round_count)
         (.match (.prim .len [.var .key]) [(.int .usize 16), (.int .usize 24), (.int .usize 32), .wild]
            [.int .usize 10,
             .int .usize 12,
             .int .usize 14,
             .block [.return (.ctor .Err [.ctor .AESError_InvalidKeySize []])] .unit]),
       .assign (.field (.var .self) .round_keys)
         (.ctor .Some [.call .aes_expand_key [.var .key, .field (.var .self) .round_count]])]
      (.ctor .Ok [.unit])

/-- src/aes.rs:349-374
```
pub fn encrypt(&self, b: &[u8; BLOCK_SIZE]) -> Result<[u8; BLOCK_SIZE], AESError> {
    let nr = self.round_count;
    let mut state = to_block(b);
    let round_keys = match &self.round_keys {
        Some(keys) => keys,
        None => {
            return Err(AESError::NotInitialized);
        }
    };
    AESEncrypt::add_round_key(&mut state, &round_keys[0..NB]);
    for round in 1..nr {
        AESEncrypt::sub_bytes(&mut state);
        state = AESEncrypt::shift_rows(&state);
        AESEncrypt::mix_columns(&mut state);
        AESEncrypt::add_round_key(&mut state, &round_keys[(round * NB)..((round + 1) * NB)]);
    }
    AESEncrypt::sub_bytes(&mut state);
    state = AESEncrypt::shift_rows(&state);
    AESEncrypt::add_round_key(&mut state, &round_keys[(nr * NB)..]);
    Ok(from_block(&state))
}
``` -/
def fn_aes_AES_encrypt : FnDef where
  params := [(.self, .val), (.b, .val)]
  body :=
    .block
      [.let (.var .nr) (.field (.var .self) .round_count),
       .let (.var .state) (.call .aes_to_block [.var .b]),
       .let (.var .round_keys)
         (.match (.field (.var .self) .round_keys) [(.ctor .Some [(.var .keys)]), (.ctor .None [])]
            [.var .keys, .block [.return (.ctor .Err [.ctor .AESError_NotInitialized []])] .unit]),
       .call .aes_AESEncrypt_add_round_key
         [.var .state, .slice (.var .round_keys) (.int .usize 0) (.const .aes_NB)],
       .for (.var .round) (.range (.int .usize 1) (.var .nr))
         (.block
            [.call .aes_AESEncrypt_sub_bytes [.var .state],
             .assign (.var .state) (.call .aes_AESEncrypt_shift_rows [.var .state]),
             .call .aes_AESEncrypt_mix_columns [.var .state],
             .call .aes_AESEncrypt_add_round_key
               [.var .state,
                .slice (.var .round_keys) (.bin .mul (.var .round) (.const .aes_NB))
                  (.bin .mul (.bin .add (.var .round) (.int .usize 1)) (.const .aes_NB))]]
            .unit),
       .call .aes_AESEncrypt_sub_bytes [.var .state],
       .assign (.var .state) (.call .aes_AESEncrypt_shift_rows [.var .state]),
       .call .aes_AESEncrypt_add_round_key
         [.var .state, .sliceFrom (.var .round_keys) (.bin .mul (.var .nr) (.const .aes_NB))]]
      (.ctor .Ok [.call .aes_from_block [.var .state]])

/-- src/aes.rs:377-402
```
pub fn decrypt(&self, b: &[u8; BLOCK_SIZE]) -> Result<[u8; BLOCK_SIZE], AESError> {
    let nr = self.round_count;
    let mut state = to_block(b);
    let round_keys = match &self.round_keys {
        Some(keys) => keys,
        None => {
            return Err(AESError::NotInitialized);
        }
    };
    AESDecrypt::add_round_key(&mut state, &round_keys[(nr * NB)..]);
    for round in (1..nr).rev() {
        state = AESDecrypt::shift_rows(&state);
        AESDecrypt::sub_bytes(&mut state);
        AESDecrypt::add_round_key(&mut state, &round_keys[(round * NB)..((round + 1) * NB)]);
        AESDecrypt::mix_columns(&mut state);
    }
    state = AESDecrypt::shift_rows(&state);
    AESDecrypt::sub_bytes(&mut state);
    AESDecrypt::add_round_key(&mut state, &round_keys[0..NB]);
    Ok(from_block(&state))
}
``` -/
def fn_aes_AES_decrypt : FnDef where
  params := [(.self, .val), (.b, .val)]
  body :=
    .block
      [.let (.var .nr) (.field (.var .self) .round_count),
       .let (.var .state) (.call .aes_to_block [.var .b]),
       .let (.var .round_keys)
         (.match (.field (.var .self) .round_keys) [(.ctor .Some [(.var .keys)]), (.ctor .None [])]
            [.var .keys, .block [.return (.ctor .Err [.ctor .AESError_NotInitialized []])] .unit]),
       .call .aes_AESDecrypt_add_round_key
         [.var .state, .sliceFrom (.var .round_keys) (.bin .mul (.var .nr) (.const .aes_NB))],
       .for (.var .round) (.prim .rev [.range (.int .usize 1) (.var .nr)])
         (.block
            [.assign (.var .state) (.call .aes_AESDecrypt_shift_rows [.var .state]),
             .call .aes_AESDecrypt_sub_bytes [.var .state],
             .call .aes_AESDecrypt_add_round_key
               [.var .state,
                .slice (.var .round_keys) (.bin .mul (.var .round) (.const .aes_NB))
                  (.bin .mul (.bin .add (.var .round) (.int .usize 1)) (.const .aes_NB))],
             .call .aes_AESDecrypt_mix_columns [.var .state]]
            .unit),
       .assign (.var .state) (.call .aes_AESDecrypt_shift_rows [.var .state]),
       .call .aes_AESDecrypt_sub_bytes [.var .state],
       .call .aes_AESDecrypt_add_round_key
         [.var .state, .slice (.var .round_keys) (.int .usize 0) (.const .aes_NB)]]
      (.ctor .Ok [.call .aes_from_block [.var .state]])

/-- src/aes.rs:406-408
```
fn default() -> Self {
    Self::new()
}
``` -/
def fn_aes_AES_default : FnDef where
  params := []
  body :=
    .block [] (.call .aes_AES_new [])

end Verif.Source.Gen
