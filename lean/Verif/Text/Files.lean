-- Generated by tools/text2lean.py from /repo/src. Do not edit.

/-! The text of the files of `/repo/src`: their lines, without the line feed that ends each of them. -/

namespace Verif.Text.Files

set_option maxRecDepth 20000

/-- `src/lib.rs` -/
def lib : List String := [
r#"//! # dumb-crypto"#,
r#"//!"#,
r#"//! This library implements following cryptographic routines in the dumbest and"#,
r#"//! the most obvious way:"#,
r#"//!"#,
r#"//! - sha256"#,
r#"//! - hmac-sha256"#,
r#"//! - pbkdf2-sha256"#,
r#"//! - salsa20"#,
r#"//! - scrypt"#,
r#"//!"#,
r#"//! Normally, one would find a highly optimized code implementing those."#,
r#"//! However, verifying such code is a non-trivial task."#,
r#"//!"#,
r#"//! All routines (except for scrypt itself) are pre-requisites for scrypt. They"#,
r#"//! are provided here just for convenience."#,
r#"//!"#,
r#"//! Documentation is available for each separate module."#,
r#"//!"#,
r#""#,
r#"#[macro_use]"#,
r#"mod common;"#,
r#"mod pkcs7;"#,
r#""#,
r#"pub mod aes;"#,
r#"pub mod aes_cbc;"#,
r#"pub mod hmac;"#,
r#"pub mod pbkdf2;"#,
r#"pub mod salsa20;"#,
r#"pub mod scrypt;"#,
r#"pub mod sha256;"#]

/-- `src/common.rs` -/
def common : List String := [
r#"#[macro_export]"#,
r#"macro_rules! wrapping_sum {"#,
r#"    ( $a:expr, $( $x:expr ),* ) => {"#,
r#"        {"#,
r#"            let mut acc = $a;"#,
r#"            $("#,
r#"                acc = acc.wrapping_add($x);"#,
r#"            )*"#,
r#"            acc"#,
r#"        }"#,
r#"    };"#,
r#"}"#,
r#""#,
r#"#[cfg(test)]"#,
r#"pub fn hex_to_vec(hex: &str) -> Vec<u8> {"#,
r#"    let mut iter = hex.as_bytes().iter().map(|letter| match letter {"#,
r#"        b'0'...b'9' => letter - b'0',"#,
r#"        b'a'...b'f' => letter - b'a' + 10,"#,
r#"        b'A'...b'F' => letter - b'A' + 10,"#,
r#"        _ => panic!(),"#,
r#"    });"#,
r#""#,
r#"    let mut result: Vec<u8> = Vec::with_capacity(hex.len() / 2);"#,
r#"    while let (Some(h), Some(l)) = (iter.next(), iter.next()) {"#,
r#"        result.push((h << 4) | l);"#,
r#"    }"#,
r#"    result"#,
r#"}"#]

/-- `src/sha256.rs` -/
def sha256 : List String := [
r#"//! # SHA256"#,
r#"//!"#,
r#"//! Implementation of SHA256 digest according to [RFC 6234][rfc]."#,
r#"//!"#,
r#"//! [rfc]: https://tools.ietf.org/html/rfc6234#section-5.1"#,
r#"//!"#,
r#""#,
r#"/// Length of digest array"#,
r#"pub const DIGEST_SIZE: usize = 32;"#,
r#""#,
r#"/// Internal block size"#,
r#"pub const BLOCK_SIZE: usize = 64;"#,
r#""#,
r#"// See: https://tools.ietf.org/html/rfc6234#section-5.1"#,
r#"const K: [u32; 64] = ["#,
r#"    0x428a_2f98,"#,
r#"    0x7137_4491,"#,
r#"    0xb5c0_fbcf,"#,
r#"    0xe9b5_dba5,"#,
r#"    0x3956_c25b,"#,
r#"    0x59f1_11f1,"#,
r#"    0x923f_82a4,"#,
r#"    0xab1c_5ed5,"#,
r#"    0xd807_aa98,"#,
r#"    0x1283_5b01,"#,
r#"    0x2431_85be,"#,
r#"    0x550c_7dc3,"#,
r#"    0x72be_5d74,"#,
r#"    0x80de_b1fe,"#,
r#"    0x9bdc_06a7,"#,
r#"    0xc19b_f174,"#,
r#"    0xe49b_69c1,"#,
r#"    0xefbe_4786,"#,
r#"    0x0fc1_9dc6,"#,
r#"    0x240c_a1cc,"#,
r#"    0x2de9_2c6f,"#,
r#"    0x4a74_84aa,"#,
r#"    0x5cb0_a9dc,"#,
r#"    0x76f9_88da,"#,
r#"    0x983e_5152,"#,
r#"    0xa831_c66d,"#,
r#"    0xb003_27c8,"#,
r#"    0xbf59_7fc7,"#,
r#"    0xc6e0_0bf3,"#,
r#"    0xd5a7_9147,"#,
r#"    0x06ca_6351,"#,
r#"    0x1429_2967,"#,
r#"    0x27b7_0a85,"#,
r#"    0x2e1b_2138,"#,
r#"    0x4d2c_6dfc,"#,
r#"    0x5338_0d13,"#,
r#"    0x650a_7354,"#,
r#"    0x766a_0abb,"#,
r#"    0x81c2_c92e,"#,
r#"    0x9272_2c85,"#,
r#"    0xa2bf_e8a1,"#,
r#"    0xa81a_664b,"#,
r#"    0xc24b_8b70,"#,
r#"    0xc76c_51a3,"#,
r#"    0xd192_e819,"#,
r#"    0xd699_0624,"#,
r#"    0xf40e_3585,"#,
r#"    0x106a_a070,"#,
r#"    0x19a4_c116,"#,
r#"    0x1e37_6c08,"#,
r#"    0x2748_774c,"#,
r#"    0x34b0_bcb5,"#,
r#"    0x391c_0cb3,"#,
r#"    0x4ed8_aa4a,"#,
r#"    0x5b9c_ca4f,"#,
r#"    0x682e_6ff3,"#,
r#"    0x748f_82ee,"#,
r#"    0x78a5_636f,"#,
r#"    0x84c8_7814,"#,
r#"    0x8cc7_0208,"#,
r#"    0x90be_fffa,"#,
r#"    0xa450_6ceb,"#,
r#"    0xbef9_a3f7,"#,
r#"    0xc671_78f2,"#,
r#"];"#,
r#""#,
r#"const H: [u32; 8] = ["#,
r#"    0x6a09_e667,"#,
r#"    0xbb67_ae85,"#,
r#"    0x3c6e_f372,"#,
r#"    0xa54f_f53a,"#,
r#"    0x510e_527f,"#,
r#"    0x9b05_688c,"#,
r#"    0x1f83_d9ab,"#,
r#"    0x5be0_cd19,"#,
r#"];"#,
r#""#,
r#"// CH( x, y, z) = (x AND y) XOR ( (NOT x) AND z)"#,
r#"fn ch(x: u32, y: u32, z: u32) -> u32 {"#,
r#"    (x & y) ^ ((!x) & z)"#,
r#"}"#,
r#""#,
r#"// MAJ( x, y, z) = (x AND y) XOR (x AND z) XOR (y AND z)"#,
r#"fn maj(x: u32, y: u32, z: u32) -> u32 {"#,
r#"    (x & y) ^ (x & z) ^ (y & z)"#,
r#"}"#,
r#""#,
r#"fn rotr(n: u32, s: u32) -> u32 {"#,
r#"    (n << (32 - s)) | (n >> s)"#,
r#"}"#,
r#""#,
r#"// BSIG0(x) = ROTR^2(x) XOR ROTR^13(x) XOR ROTR^22(x)"#,
r#"fn bsig0(x: u32) -> u32 {"#,
r#"    rotr(x, 2) ^ rotr(x, 13) ^ rotr(x, 22)"#,
r#"}"#,
r#""#,
r#"// BSIG1(x) = ROTR^6(x) XOR ROTR^11(x) XOR ROTR^25(x)"#,
r#"fn bsig1(x: u32) -> u32 {"#,
r#"    rotr(x, 6) ^ rotr(x, 11) ^ rotr(x, 25)"#,
r#"}"#,
r#""#,
r#"// SSIG0(x) = ROTR^7(x) XOR ROTR^18(x) XOR SHR^3(x)"#,
r#"fn ssig0(x: u32) -> u32 {"#,
r#"    rotr(x, 7) ^ rotr(x, 18) ^ (x >> 3)"#,
r#"}"#,
r#""#,
r#"// SSIG1(x) = ROTR^17(x) XOR ROTR^19(x) XOR SHR^10(x)"#,
r#"fn ssig1(x: u32) -> u32 {"#,
r#"    rotr(x, 17) ^ rotr(x, 19) ^ (x >> 10)"#,
r#"}"#,
r#""#,
r#"fn fill_block(input: &[u8; BLOCK_SIZE], output: &mut [u32; BLOCK_SIZE / 4]) {"#,
r#"    for i in 0..output.len() {"#,
r#"        let i0 = u32::from(input[i * 4]);"#,
r#"        let i1 = u32::from(input[i * 4 + 1]);"#,
r#"        let i2 = u32::from(input[i * 4 + 2]);"#,
r#"        let i3 = u32::from(input[i * 4 + 3]);"#,
r#""#,
r#"        output[i] = (i0 << 24) | (i1 << 16) | (i2 << 8) | i3;"#,
r#"    }"#,
r#"}"#,
r#""#,
r#"fn write_u64_be(data: &mut [u8], value: u64) {"#,
r#"    data[0] = (value >> 56) as u8;"#,
r#"    data[1] = (value >> 48) as u8;"#,
r#"    data[2] = (value >> 40) as u8;"#,
r#"    data[3] = (value >> 32) as u8;"#,
r#"    data[4] = (value >> 24) as u8;"#,
r#"    data[5] = (value >> 16) as u8;"#,
r#"    data[6] = (value >> 8) as u8;"#,
r#"    data[7] = (value) as u8;"#,
r#"}"#,
r#""#,
r#"///"#,
r#"/// Main digest structure."#,
r#"///"#,
r#"/// Usage:"#,
r#"/// ```rust"#,
r#"/// extern crate dumb_crypto;"#,
r#"///"#,
r#"/// use dumb_crypto::sha256::SHA256;"#,
r#"///"#,
r#"/// let mut sha256 = SHA256::new();"#,
r#"///"#,
r#"/// sha256.update(b"hello world");"#,
r#"/// assert_eq!(sha256.digest().to_vec(), vec!["#,
r#"///     0xb9, 0x4d, 0x27, 0xb9, 0x93, 0x4d, 0x3e, 0x08,"#,
r#"///     0xa5, 0x2e, 0x52, 0xd7, 0xda, 0x7d, 0xab, 0xfa,"#,
r#"///     0xc4, 0x84, 0xef, 0xe3, 0x7a, 0x53, 0x80, 0xee,"#,
r#"///     0x90, 0x88, 0xf7, 0xac, 0xe2, 0xef, 0xcd, 0xe9,"#,
r#"/// ]);"#,
r#"/// ```"#,
r#"///"#,
r#"pub struct SHA256 {"#,
r#"    h: [u32; 8],"#,
r#"    buffer: [u8; BLOCK_SIZE],"#,
r#"    length: usize,"#,
r#"}"#,
r#""#,
r#"impl SHA256 {"#,
r#"    ///"#,
r#"    /// Create new instance of SHA256 digest."#,
r#"    ///"#,
r#"    pub fn new() -> SHA256 {"#,
r#"        SHA256 {"#,
r#"            h: H,"#,
r#"            buffer: [0; BLOCK_SIZE],"#,
r#"            length: 0,"#,
r#"        }"#,
r#"    }"#,
r#""#,
r#"    fn process_block(self: &mut SHA256, block: &[u32; 16]) {"#,
r#"        //"#,
r#"        //    1. Prepare the message schedule W:"#,
r#"        //         For t = 0 to 15"#,
r#"        //             Wt = M(i)t"#,
r#"        //         For t = 16 to 63"#,
r#"        //             Wt = SSIG1(W(t-2)) + W(t-7) + SSIG0(w(t-15)) + W(t-16)"#,
r#"        //"#,
r#"        let mut w: [u32; 64] = [0; 64];"#,
r#"        let mut a: u32;"#,
r#"        let mut b: u32;"#,
r#"        let mut c: u32;"#,
r#"        let mut d: u32;"#,
r#"        let mut e: u32;"#,
r#"        let mut f: u32;"#,
r#"        let mut g: u32;"#,
r#"        let mut h: u32;"#,
r#""#,
r#"        w[..16].clone_from_slice(&block[..16]);"#,
r#""#,
r#"        for t in 16..64 {"#,
r#"            w[t] = wrapping_sum!(ssig1(w[t - 2]), w[t - 7], ssig0(w[t - 15]), w[t - 16]);"#,
r#"        }"#,
r#""#,
r#"        //"#,
r#"        //    2. Initialize the working variables:"#,
r#"        //         a = H(i-1)0"#,
r#"        //         b = H(i-1)1"#,
r#"        //         c = H(i-1)2"#,
r#"        //         d = H(i-1)3"#,
r#"        //         e = H(i-1)4"#,
r#"        //         f = H(i-1)5"#,
r#"        //         g = H(i-1)6"#,
r#"        //         h = H(i-1)7"#,
r#"        //"#,
r#"        a = self.h[0];"#,
r#"        b = self.h[1];"#,
r#"        c = self.h[2];"#,
r#"        d = self.h[3];"#,
r#"        e = self.h[4];"#,
r#"        f = self.h[5];"#,
r#"        g = self.h[6];"#,
r#"        h = self.h[7];"#,
r#""#,
r#"        //"#,
r#"        //    3. Perform the main hash computation:"#,
r#"        //       For t = 0 to 63"#,
r#"        //          T1 = h + BSIG1(e) + CH(e,f,g) + Kt + Wt"#,
r#"        //          T2 = BSIG0(a) + MAJ(a,b,c)"#,
r#"        //          h = g"#,
r#"        //          g = f"#,
r#"        //          f = e"#,
r#"        //          e = d + T1"#,
r#"        //          d = c"#,
r#"        //          c = b"#,
r#"        //          b = a"#,
r#"        //          a = T1 + T2"#,
r#"        //"#,
r#"        for t in 0..64 {"#,
r#"            let t1 = wrapping_sum!(h, bsig1(e), ch(e, f, g), K[t], w[t]);"#,
r#"            let t2 = wrapping_sum!(bsig0(a), maj(a, b, c));"#,
r#"            h = g;"#,
r#"            g = f;"#,
r#"            f = e;"#,
r#"            e = wrapping_sum!(d, t1);"#,
r#"            d = c;"#,
r#"            c = b;"#,
r#"            b = a;"#,
r#"            a = wrapping_sum!(t1, t2);"#,
r#"        }"#,
r#""#,
r#"        //"#,
r#"        //    4. Compute the intermediate hash value H(i)"#,
r#"        //       H(i)0 = a + H(i-1)0"#,
r#"        //       H(i)1 = b + H(i-1)1"#,
r#"        //       H(i)2 = c + H(i-1)2"#,
r#"        //       H(i)3 = d + H(i-1)3"#,
r#"        //       H(i)4 = e + H(i-1)4"#,
r#"        //       H(i)5 = f + H(i-1)5"#,
r#"        //       H(i)6 = g + H(i-1)6"#,
r#"        //       H(i)7 = h + H(i-1)7"#,
r#"        //"#,
r#"        self.h[0] = wrapping_sum!(self.h[0], a);"#,
r#"        self.h[1] = wrapping_sum!(self.h[1], b);"#,
r#"        self.h[2] = wrapping_sum!(self.h[2], c);"#,
r#"        self.h[3] = wrapping_sum!(self.h[3], d);"#,
r#"        self.h[4] = wrapping_sum!(self.h[4], e);"#,
r#"        self.h[5] = wrapping_sum!(self.h[5], f);"#,
r#"        self.h[6] = wrapping_sum!(self.h[6], g);"#,
r#"        self.h[7] = wrapping_sum!(self.h[7], h);"#,
r#"    }"#,
r#""#,
r#"    ///"#,
r#"    /// Add input `data` to the digest."#,
r#"    ///"#,
r#"    pub fn update(self: &mut SHA256, data: &[u8]) {"#,
r#"        let mut block: [u32; BLOCK_SIZE / 4] = [0; BLOCK_SIZE / 4];"#,
r#""#,
r#"        for &b in data {"#,
r#"            let off = self.length % BLOCK_SIZE;"#,
r#""#,
r#"            // Fill the buffer"#,
r#"            self.buffer[off] = b;"#,
r#"            self.length += 1;"#,
r#""#,
r#"            if self.length % BLOCK_SIZE != 0 {"#,
r#"                continue;"#,
r#"            }"#,
r#""#,
r#"            fill_block(&self.buffer, &mut block);"#,
r#"            self.process_block(&block);"#,
r#"        }"#,
r#"    }"#,
r#""#,
r#"    ///"#,
r#"    /// Generate digest array."#,
r#"    ///"#,
r#"    pub fn digest(self: &mut SHA256) -> [u8; DIGEST_SIZE] {"#,
r#"        // https://tools.ietf.org/html/rfc6234#section-4.1"#,
r#""#,
r#"        //"#,
r#"        //   Suppose a message has length L < 2^64.  Before it is input to the"#,
r#"        //   hash function, the message is padded on the right as follows:"#,
r#"        //"#,
r#"        //   a. "1" is appended.  Example: if the original message is "01010000","#,
r#"        //      this is padded to "010100001"."#,
r#"        //"#,
r#"        //   b. K "0"s are appended where K is the smallest, non-negative solution"#,
r#"        //      to the equation"#,
r#"        //"#,
r#"        //         ( L + 1 + K ) mod 512 = 448"#,
r#"        //"#,
r#"        //   c. Then append the 64-bit block that is L in binary representation."#,
r#"        //      After appending this block, the length of the message will be a"#,
r#"        //      multiple of 512 bits."#,
r#"        //"#,
r#""#,
r#"        let mut block: [u32; BLOCK_SIZE / 4] = [0; BLOCK_SIZE / 4];"#,
r#""#,
r#"        // NOTE: It is simple to calculate `k`, but having it is a bit useless,"#,
r#"        // since we know that this algorithm just wants to zero the rest of the"#,
r#"        // block and to put the 64bit length to the end"#,
r#"        let mut off = self.length % BLOCK_SIZE;"#,
r#""#,
r#"        // (b)"#,
r#"        for i in off..self.buffer.len() {"#,
r#"            self.buffer[i] = 0;"#,
r#"        }"#,
r#""#,
r#"        // If the padding does not fit in a single block - append 0x80 and zeroes"#,
r#"        // to the current block and flush it."#,
r#"        // Then fill the block with zeroes and append size to it, and flush it"#,
r#"        // again."#,
r#"        let has_overflow = off + 9 > BLOCK_SIZE;"#,
r#"        if has_overflow {"#,
r#"            // (a)"#,
r#"            self.buffer[off] |= 0x80;"#,
r#""#,
r#"            fill_block(&self.buffer, &mut block);"#,
r#"            self.process_block(&block);"#,
r#""#,
r#"            off = 0;"#,
r#"            self.buffer = [0; BLOCK_SIZE];"#,
r#"        }"#,
r#""#,
r#"        // (c)"#,
r#"        let len_off = self.buffer.len() - 8;"#,
r#"        write_u64_be(&mut self.buffer[len_off..], (self.length * 8) as u64);"#,
r#""#,
r#"        // (a)"#,
r#"        if !has_overflow {"#,
r#"            self.buffer[off] |= 0x80;"#,
r#"        }"#,
r#""#,
r#"        fill_block(&self.buffer, &mut block);"#,
r#"        self.process_block(&block);"#,
r#""#,
r#"        let mut out: [u8; DIGEST_SIZE] = [0; DIGEST_SIZE];"#,
r#"        for i in 0..self.h.len() {"#,
r#"            out[i * 4] = (self.h[i] >> 24) as u8;"#,
r#"            out[i * 4 + 1] = (self.h[i] >> 16) as u8;"#,
r#"            out[i * 4 + 2] = (self.h[i] >> 8) as u8;"#,
r#"            out[i * 4 + 3] = (self.h[i]) as u8;"#,
r#"        }"#,
r#"        out"#,
r#"    }"#,
r#"}"#,
r#""#,
r#"impl Default for SHA256 {"#,
r#"    fn default() -> SHA256 {"#,
r#"        SHA256::new()"#,
r#"    }"#,
r#"}"#,
r#""#,
r#"#[cfg(test)]"#,
r#"mod tests {"#,
r#"    use super::*;"#,
r#""#,
r#"    fn check(inputs: &[&str], expected: [u8; DIGEST_SIZE]) {"#,
r#"        let mut sha256 = SHA256::new();"#,
r#""#,
r#"        for chunk in inputs {"#,
r#"            sha256.update(chunk.as_bytes());"#,
r#"        }"#,
r#"        assert_eq!(sha256.digest(), expected);"#,
r#"    }"#,
r#""#,
r#"    #[test]"#,
r#"    fn it_should_compute_digest_for_abc() {"#,
r#"        check("#,
r#"            &["abc"],"#,
r#"            ["#,
r#"                0xBA, 0x78, 0x16, 0xBF, 0x8F, 0x01, 0xCF, 0xEA, 0x41, 0x41, 0x40, 0xDE, 0x5D, 0xAE,"#,
r#"                0x22, 0x23, 0xB0, 0x03, 0x61, 0xA3, 0x96, 0x17, 0x7A, 0x9C, 0xB4, 0x10, 0xFF, 0x61,"#,
r#"                0xF2, 0x00, 0x15, 0xAD,"#,
r#"            ],"#,
r#"        );"#,
r#"    }"#,
r#""#,
r#"    #[test]"#,
r#"    fn it_should_compute_digest_for_a_b_c() {"#,
r#"        check("#,
r#"            &["a", "b", "c"],"#,
r#"            ["#,
r#"                0xBA, 0x78, 0x16, 0xBF, 0x8F, 0x01, 0xCF, 0xEA, 0x41, 0x41, 0x40, 0xDE, 0x5D, 0xAE,"#,
r#"                0x22, 0x23, 0xB0, 0x03, 0x61, 0xA3, 0x96, 0x17, 0x7A, 0x9C, 0xB4, 0x10, 0xFF, 0x61,"#,
r#"                0xF2, 0x00, 0x15, 0xAD,"#,
r#"            ],"#,
r#"        );"#,
r#"    }"#,
r#""#,
r#"    #[test]"#,
r#"    fn it_should_compute_digest_for_long_str() {"#,
r#"        check("#,
r#"            &["abcdbcdecdefdefgefghfghighijhijkijkljklmklmnlmnomnopnopq"],"#,
r#"            ["#,
r#"                0x24, 0x8D, 0x6A, 0x61, 0xD2, 0x06, 0x38, 0xB8, 0xE5, 0xC0, 0x26, 0x93, 0x0C, 0x3E,"#,
r#"                0x60, 0x39, 0xA3, 0x3C, 0xE4, 0x59, 0x64, 0xFF, 0x21, 0x67, 0xF6, 0xEC, 0xED, 0xD4,"#,
r#"                0x19, 0xDB, 0x06, 0xC1,"#,
r#"            ],"#,
r#"        );"#,
r#"    }"#,
r#""#,
r#"    #[test]"#,
r#"    fn it_should_compute_digest_for_long_chunked_str() {"#,
r#"        check("#,
r#"            &["#,
r#"                "abcdbcdec","#,
r#"                "defdefgefg","#,
r#"                "hfghighijhi","#,
r#"                "jkijkljklmkl","#,
r#"                "mnlmnomnopnopq","#,
r#"            ],"#,
r#"            ["#,
r#"                0x24, 0x8D, 0x6A, 0x61, 0xD2, 0x06, 0x38, 0xB8, 0xE5, 0xC0, 0x26, 0x93, 0x0C, 0x3E,"#,
r#"                0x60, 0x39, 0xA3, 0x3C, 0xE4, 0x59, 0x64, 0xFF, 0x21, 0x67, 0xF6, 0xEC, 0xED, 0xD4,"#,
r#"                0x19, 0xDB, 0x06, 0xC1,"#,
r#"            ],"#,
r#"        );"#,
r#"    }"#,
r#""#,
r#"    #[test]"#,
r#"    fn it_should_compute_digest_for_doubled_chunked_long_str() {"#,
r#"        check("#,
r#"            &["#,
r#"                "abcdbcdecdefdefgefghfghighijhijkijkljklmklmnlmnomnopnopq","#,
r#"                "abcdbcdecdefdefgefghfghighijhijkijkljklmklmnlmnomnopnopq","#,
r#"            ],"#,
r#"            ["#,
r#"                0x59, 0xf1, 0x09, 0xd9, 0x53, 0x3b, 0x2b, 0x70, 0xe7, 0xc3, 0xb8, 0x14, 0xa2, 0xbd,"#,
r#"                0x21, 0x8f, 0x78, 0xea, 0x5d, 0x37, 0x14, 0x45, 0x5b, 0xc6, 0x79, 0x87, 0xcf, 0x0d,"#,
r#"                0x66, 0x43, 0x99, 0xcf,"#,
r#"            ],"#,
r#"        );"#,
r#"    }"#,
r#""#,
r#"    #[test]"#,
r#"    fn it_should_compute_digest_for_doubled_long_str() {"#,
r#"        check("#,
r#"            &["#,
r#"                "abcdbcdecdefdefgefghfghighijhijkijkljklmklmnlmnomnopnopqabc\"#,
r#"                 dbcdecdefdefgefghfghighijhijkijkljklmklmnlmnomnopnopq","#,
r#"            ],"#,
r#"            ["#,
r#"                0x59, 0xf1, 0x09, 0xd9, 0x53, 0x3b, 0x2b, 0x70, 0xe7, 0xc3, 0xb8, 0x14, 0xa2, 0xbd,"#,
r#"                0x21, 0x8f, 0x78, 0xea, 0x5d, 0x37, 0x14, 0x45, 0x5b, 0xc6, 0x79, 0x87, 0xcf, 0x0d,"#,
r#"                0x66, 0x43, 0x99, 0xcf,"#,
r#"            ],"#,
r#"        );"#,
r#"    }"#,
r#"}"#]

/-- `src/hmac.rs` -/
def hmac : List String := [
r#"//! # Hmac"#,
r#"//!"#,
r#"//! Implementation of HMac SHA256 message authentication algorithm according to"#,
r#"//! [RFC 2104][rfc]."#,
r#"//!"#,
r#"//! [rfc]: https://tools.ietf.org/html/rfc2104#section-2"#,
r#"//!"#,
r#""#,
r#"use crate::sha256::{BLOCK_SIZE, DIGEST_SIZE, SHA256};"#,
r#""#,
r#"///"#,
r#"/// Main hmac-sha256 structure."#,
r#"///"#,
r#"/// Usage:"#,
r#"/// ```rust"#,
r#"/// extern crate dumb_crypto;"#,
r#"///"#,
r#"/// use dumb_crypto::hmac::HMac;"#,
r#"///"#,
r#"/// let mut hmac = HMac::new(b"secret key");"#,
r#"///"#,
r#"/// hmac.update(b"hello world");"#,
r#"/// assert_eq!(hmac.digest().to_vec(), vec!["#,
r#"///     0xc6, 0x1b, 0x51, 0x98, 0xdf, 0x58, 0x63, 0x9e,"#,
r#"///     0xdb, 0x98, 0x92, 0x51, 0x47, 0x56, 0xb8, 0x9a,"#,
r#"///     0x36, 0x85, 0x6d, 0x82, 0x6e, 0x5d, 0x85, 0x02,"#,
r#"///     0x3a, 0xb1, 0x81, 0xb4, 0x8e, 0xa5, 0xd0, 0x18,"#,
r#"/// ]);"#,
r#"/// ```"#,
r#"///"#,
r#"pub struct HMac {"#,
r#"    inner: SHA256,"#,
r#"    outer: SHA256,"#,
r#"}"#,
r#""#,
r#"// See https://tools.ietf.org/html/rfc2104#section-2"#,
r#""#,
r#"impl HMac {"#,
r#"    ///"#,
r#"    /// Create new instance of Hmac-sha256 message authentication."#,
r#"    ///"#,
r#"    /// Arguments:"#,
r#"    ///"#,
r#"    /// - `key` - secret key"#,
r#"    ///"#,
r#"    pub fn new(key: &[u8]) -> HMac {"#,
r#"        //"#,
r#"        //                ipad = the byte 0x36 repeated B times"#,
r#"        //                opad = the byte 0x5C repeated B times."#,
r#"        //"#,
r#"        //   To compute HMAC over the data `text' we perform"#,
r#"        //"#,
r#"        //                    H(K XOR opad, H(K XOR ipad, text))"#,
r#"        //"#,
r#"        //   Namely,"#,
r#"        //"#,
r#"        //    (1) append zeros to the end of K to create a B byte string"#,
r#"        //        (e.g., if K is of length 20 bytes and B=64, then K will be"#,
r#"        //         appended with 44 zero bytes 0x00)"#,
r#"        //    (2) XOR (bitwise exclusive-OR) the B byte string computed in step"#,
r#"        //        (1) with ipad"#,
r#"        //    (3) append the stream of data 'text' to the B byte string resulting"#,
r#"        //        from step (2)"#,
r#"        //    (4) apply H to the stream generated in step (3)"#,
r#"        //    (5) XOR (bitwise exclusive-OR) the B byte string computed in"#,
r#"        //        step (1) with opad"#,
r#"        //    (6) append the H result from step (4) to the B byte string"#,
r#"        //        resulting from step (5)"#,
r#"        //    (7) apply H to the stream generated in step (6) and output"#,
r#"        //        the result"#,
r#"        //"#,
r#""#,
r#"        // Hash the key to fit it into the block"#,
r#"        if key.len() > BLOCK_SIZE {"#,
r#"            let mut tmp = SHA256::new();"#,
r#"            tmp.update(key);"#,
r#"            return HMac::new(&tmp.digest());"#,
r#"        }"#,
r#""#,
r#"        let mut block: [u8; BLOCK_SIZE] = [0; BLOCK_SIZE];"#,
r#""#,
r#"        let mut inner = SHA256::new();"#,
r#"        let mut outer = SHA256::new();"#,
r#""#,
r#"        block[..key.len()].copy_from_slice(key);"#,
r#""#,
r#"        for elem in block.iter_mut() {"#,
r#"            *elem ^= 0x36;"#,
r#"        }"#,
r#"        inner.update(&block);"#,
r#""#,
r#"        /* NOTE: a ^ b ^ b ^ c = a ^ c */"#,
r#"        for elem in block.iter_mut() {"#,
r#"            *elem ^= 0x36 ^ 0x5c;"#,
r#"        }"#,
r#"        outer.update(&block);"#,
r#""#,
r#"        HMac { inner, outer }"#,
r#"    }"#,
r#""#,
r#"    ///"#,
r#"    /// Add input `data` to the digest."#,
r#"    ///"#,
r#"    pub fn update(self: &mut HMac, data: &[u8]) {"#,
r#"        self.inner.update(data);"#,
r#"    }"#,
r#""#,
r#"    ///"#,
r#"    /// Generate digest array."#,
r#"    ///"#,
r#"    pub fn digest(self: &mut HMac) -> [u8; DIGEST_SIZE] {"#,
r#"        self.outer.update(&self.inner.digest());"#,
r#"        self.outer.digest()"#,
r#"    }"#,
r#"}"#,
r#""#,
r#"#[cfg(test)]"#,
r#"mod tests {"#,
r#"    use super::*;"#,
r#""#,
r#"    fn check(key: &[u8], inputs: &[&[u8]], expected: [u8; DIGEST_SIZE]) {"#,
r#"        let mut hmac = HMac::new(key);"#,
r#""#,
r#"        for chunk in inputs {"#,
r#"            hmac.update(chunk);"#,
r#"        }"#,
r#"        assert_eq!(hmac.digest(), expected);"#,
r#"    }"#,
r#""#,
r#"    //"#,
r#"    // See https://tools.ietf.org/html/rfc4231"#,
r#"    //"#,
r#""#,
r#"    #[test]"#,
r#"    fn it_should_compute_digest_for_vec0() {"#,
r#"        check("#,
r#"            b"\x0b\x0b\x0b\x0b\x0b\x0b\x0b\x0b\x0b\x0b\x0b\x0b\x0b\x0b\x0b\x0b\x0b\x0b\x0b\x0b","#,
r#"            &[b"Hi There"],"#,
r#"            ["#,
r#"                0xb0, 0x34, 0x4c, 0x61, 0xd8, 0xdb, 0x38, 0x53, 0x5c, 0xa8, 0xaf, 0xce, 0xaf, 0x0b,"#,
r#"                0xf1, 0x2b, 0x88, 0x1d, 0xc2, 0x00, 0xc9, 0x83, 0x3d, 0xa7, 0x26, 0xe9, 0x37, 0x6c,"#,
r#"                0x2e, 0x32, 0xcf, 0xf7,"#,
r#"            ],"#,
r#"        );"#,
r#"    }"#,
r#""#,
r#"    #[test]"#,
r#"    fn it_should_compute_digest_for_vec1() {"#,
r#"        check("#,
r#"            b"Jefe","#,
r#"            &[b"what do ya want ", b"for nothing?"],"#,
r#"            ["#,
r#"                0x5b, 0xdc, 0xc1, 0x46, 0xbf, 0x60, 0x75, 0x4e, 0x6a, 0x04, 0x24, 0x26, 0x08, 0x95,"#,
r#"                0x75, 0xc7, 0x5a, 0x00, 0x3f, 0x08, 0x9d, 0x27, 0x39, 0x83, 0x9d, 0xec, 0x58, 0xb9,"#,
r#"                0x64, 0xec, 0x38, 0x43,"#,
r#"            ],"#,
r#"        );"#,
r#"    }"#,
r#""#,
r#"    #[test]"#,
r#"    fn it_should_compute_digest_for_vec2() {"#,
r#"        check("#,
r#"            &["#,
r#"                0xaa, 0xaa, 0xaa, 0xaa, 0xaa, 0xaa, 0xaa, 0xaa, 0xaa, 0xaa, 0xaa, 0xaa, 0xaa, 0xaa,"#,
r#"                0xaa, 0xaa, 0xaa, 0xaa, 0xaa, 0xaa,"#,
r#"            ],"#,
r#"            &["#,
r#"                &["#,
r#"                    0xdd, 0xdd, 0xdd, 0xdd, 0xdd, 0xdd, 0xdd, 0xdd, 0xdd, 0xdd, 0xdd, 0xdd, 0xdd,"#,
r#"                    0xdd, 0xdd, 0xdd,"#,
r#"                ],"#,
r#"                &["#,
r#"                    0xdd, 0xdd, 0xdd, 0xdd, 0xdd, 0xdd, 0xdd, 0xdd, 0xdd, 0xdd, 0xdd, 0xdd, 0xdd,"#,
r#"                    0xdd, 0xdd, 0xdd,"#,
r#"                ],"#,
r#"                &["#,
r#"                    0xdd, 0xdd, 0xdd, 0xdd, 0xdd, 0xdd, 0xdd, 0xdd, 0xdd, 0xdd, 0xdd, 0xdd, 0xdd,"#,
r#"                    0xdd, 0xdd, 0xdd,"#,
r#"                ],"#,
r#"                &[0xdd, 0xdd],"#,
r#"            ],"#,
r#"            ["#,
r#"                0x77, 0x3e, 0xa9, 0x1e, 0x36, 0x80, 0x0e, 0x46, 0x85, 0x4d, 0xb8, 0xeb, 0xd0, 0x91,"#,
r#"                0x81, 0xa7, 0x29, 0x59, 0x09, 0x8b, 0x3e, 0xf8, 0xc1, 0x22, 0xd9, 0x63, 0x55, 0x14,"#,
r#"                0xce, 0xd5, 0x65, 0xfe,"#,
r#"            ],"#,
r#"        );"#,
r#"    }"#,
r#""#,
r#"    #[test]"#,
r#"    fn it_should_compute_digest_for_vec3() {"#,
r#"        check("#,
r#"            &["#,
r#"                0x01, 0x02, 0x03, 0x04, 0x05, 0x06, 0x07, 0x08, 0x09, 0x0a, 0x0b, 0x0c, 0x0d, 0x0e,"#,
r#"                0x0f, 0x10, 0x11, 0x12, 0x13, 0x14, 0x15, 0x16, 0x17, 0x18, 0x19,"#,
r#"            ],"#,
r#"            &["#,
r#"                &["#,
r#"                    0xcd, 0xcd, 0xcd, 0xcd, 0xcd, 0xcd, 0xcd, 0xcd, 0xcd, 0xcd, 0xcd, 0xcd, 0xcd,"#,
r#"                    0xcd, 0xcd, 0xcd,"#,
r#"                ],"#,
r#"                &["#,
r#"                    0xcd, 0xcd, 0xcd, 0xcd, 0xcd, 0xcd, 0xcd, 0xcd, 0xcd, 0xcd, 0xcd, 0xcd, 0xcd,"#,
r#"                    0xcd, 0xcd, 0xcd,"#,
r#"                ],"#,
r#"                &["#,
r#"                    0xcd, 0xcd, 0xcd, 0xcd, 0xcd, 0xcd, 0xcd, 0xcd, 0xcd, 0xcd, 0xcd, 0xcd, 0xcd,"#,
r#"                    0xcd, 0xcd, 0xcd,"#,
r#"                ],"#,
r#"                &[0xcd, 0xcd],"#,
r#"            ],"#,
r#"            ["#,
r#"                0x82, 0x55, 0x8a, 0x38, 0x9a, 0x44, 0x3c, 0x0e, 0xa4, 0xcc, 0x81, 0x98, 0x99, 0xf2,"#,
r#"                0x08, 0x3a, 0x85, 0xf0, 0xfa, 0xa3, 0xe5, 0x78, 0xf8, 0x07, 0x7a, 0x2e, 0x3f, 0xf4,"#,
r#"                0x67, 0x29, 0x66, 0x5b,"#,
r#"            ],"#,
r#"        );"#,
r#"    }"#,
r#""#,
r#"    #[test]"#,
r#"    fn it_should_compute_digest_for_vec4() {"#,
r#"        check("#,
r#"            &["#,
r#"                0xaa, 0xaa, 0xaa, 0xaa, 0xaa, 0xaa, 0xaa, 0xaa, 0xaa, 0xaa, 0xaa, 0xaa, 0xaa, 0xaa,"#,
r#"                0xaa, 0xaa, 0xaa, 0xaa, 0xaa, 0xaa, 0xaa, 0xaa, 0xaa, 0xaa, 0xaa, 0xaa, 0xaa, 0xaa,"#,
r#"                0xaa, 0xaa, 0xaa, 0xaa, 0xaa, 0xaa, 0xaa, 0xaa, 0xaa, 0xaa, 0xaa, 0xaa, 0xaa, 0xaa,"#,
r#"                0xaa, 0xaa, 0xaa, 0xaa, 0xaa, 0xaa, 0xaa, 0xaa, 0xaa, 0xaa, 0xaa, 0xaa, 0xaa, 0xaa,"#,
r#"                0xaa, 0xaa, 0xaa, 0xaa, 0xaa, 0xaa, 0xaa, 0xaa, 0xaa, 0xaa, 0xaa, 0xaa, 0xaa, 0xaa,"#,
r#"                0xaa, 0xaa, 0xaa, 0xaa, 0xaa, 0xaa, 0xaa, 0xaa, 0xaa, 0xaa, 0xaa, 0xaa, 0xaa, 0xaa,"#,
r#"                0xaa, 0xaa, 0xaa, 0xaa, 0xaa, 0xaa, 0xaa, 0xaa, 0xaa, 0xaa, 0xaa, 0xaa, 0xaa, 0xaa,"#,
r#"                0xaa, 0xaa, 0xaa, 0xaa, 0xaa, 0xaa, 0xaa, 0xaa, 0xaa, 0xaa, 0xaa, 0xaa, 0xaa, 0xaa,"#,
r#"                0xaa, 0xaa, 0xaa, 0xaa, 0xaa, 0xaa, 0xaa, 0xaa, 0xaa, 0xaa, 0xaa, 0xaa, 0xaa, 0xaa,"#,
r#"                0xaa, 0xaa, 0xaa, 0xaa, 0xaa,"#,
r#"            ],"#,
r#"            &["#,
r#"                b"Test Using Large","#,
r#"                b"r Than Block-Siz","#,
r#"                b"e Key - Hash Key","#,
r#"                b" First","#,
r#"            ],"#,
r#"            ["#,
r#"                0x60, 0xe4, 0x31, 0x59, 0x1e, 0xe0, 0xb6, 0x7f, 0x0d, 0x8a, 0x26, 0xaa, 0xcb, 0xf5,"#,
r#"                0xb7, 0x7f, 0x8e, 0x0b, 0xc6, 0x21, 0x37, 0x28, 0xc5, 0x14, 0x05, 0x46, 0x04, 0x0f,"#,
r#"                0x0e, 0xe3, 0x7f, 0x54,"#,
r#"            ],"#,
r#"        );"#,
r#"    }"#,
r#""#,
r#"    #[test]"#,
r#"    fn it_should_compute_digest_for_vec5() {"#,
r#"        check("#,
r#"            &["#,
r#"                0xaa, 0xaa, 0xaa, 0xaa, 0xaa, 0xaa, 0xaa, 0xaa, 0xaa, 0xaa, 0xaa, 0xaa, 0xaa, 0xaa,"#,
r#"                0xaa, 0xaa, 0xaa, 0xaa, 0xaa, 0xaa, 0xaa, 0xaa, 0xaa, 0xaa, 0xaa, 0xaa, 0xaa, 0xaa,"#,
r#"                0xaa, 0xaa, 0xaa, 0xaa, 0xaa, 0xaa, 0xaa, 0xaa, 0xaa, 0xaa, 0xaa, 0xaa, 0xaa, 0xaa,"#,
r#"                0xaa, 0xaa, 0xaa, 0xaa, 0xaa, 0xaa, 0xaa, 0xaa, 0xaa, 0xaa, 0xaa, 0xaa, 0xaa, 0xaa,"#,
r#"                0xaa, 0xaa, 0xaa, 0xaa, 0xaa, 0xaa, 0xaa, 0xaa, 0xaa, 0xaa, 0xaa, 0xaa, 0xaa, 0xaa,"#,
r#"                0xaa, 0xaa, 0xaa, 0xaa, 0xaa, 0xaa, 0xaa, 0xaa, 0xaa, 0xaa, 0xaa, 0xaa, 0xaa, 0xaa,"#,
r#"                0xaa, 0xaa, 0xaa, 0xaa, 0xaa, 0xaa, 0xaa, 0xaa, 0xaa, 0xaa, 0xaa, 0xaa, 0xaa, 0xaa,"#,
r#"                0xaa, 0xaa, 0xaa, 0xaa, 0xaa, 0xaa, 0xaa, 0xaa, 0xaa, 0xaa, 0xaa, 0xaa, 0xaa, 0xaa,"#,
r#"                0xaa, 0xaa, 0xaa, 0xaa, 0xaa, 0xaa, 0xaa, 0xaa, 0xaa, 0xaa, 0xaa, 0xaa, 0xaa, 0xaa,"#,
r#"                0xaa, 0xaa, 0xaa, 0xaa, 0xaa,"#,
r#"            ],"#,
r#"            &["#,
r#"                b"This is a test u","#,
r#"                b"sing a larger th","#,
r#"                b"an block-size ke","#,
r#"                b"y and a larger t","#,
r#"                b"han block-size d","#,
r#"                b"ata. The key nee","#,
r#"                b"ds to be hashed ","#,
r#"                b"before being use","#,
r#"                b"d by the HMAC al","#,
r#"                b"gorithm.","#,
r#"            ],"#,
r#"            ["#,
r#"                0x9b, 0x09, 0xff, 0xa7, 0x1b, 0x94, 0x2f, 0xcb, 0x27, 0x63, 0x5f, 0xbc, 0xd5, 0xb0,"#,
r#"                0xe9, 0x44, 0xbf, 0xdc, 0x63, 0x64, 0x4f, 0x07, 0x13, 0x93, 0x8a, 0x7f, 0x51, 0x53,"#,
r#"                0x5c, 0x3a, 0x35, 0xe2,"#,
r#"            ],"#,
r#"        );"#,
r#"    }"#,
r#""#,
r#"    //"#,
r#"    // Just random tests"#,
r#"    //"#,
r#""#,
r#"    #[test]"#,
r#"    fn it_should_compute_pbkdf2_stage_properly() {"#,
r#"        check("#,
r#"            &[0x50, 0x61, 0x73, 0x73, 0x77, 0x6f, 0x72, 0x64],"#,
r#"            &[&["#,
r#"                0xc6, 0x00, 0x40, 0x4e, 0x39, 0xc9, 0xe9, 0x7a, 0x7d, 0x7a, 0x74, 0x5b, 0x32, 0xc3,"#,
r#"                0xe7, 0x42, 0x63, 0x87, 0xb3, 0x65, 0x69, 0x3c, 0x7f, 0x59, 0x30, 0x0f, 0xd8, 0xa0,"#,
r#"                0x3a, 0xab, 0x4c, 0x6e,"#,
r#"            ]],"#,
r#"            ["#,
r#"                0xbe, 0x97, 0xc8, 0x11, 0x49, 0x75, 0x0f, 0x47, 0x65, 0x9a, 0x37, 0xf6, 0x23, 0x00,"#,
r#"                0x43, 0xf5, 0x79, 0xb5, 0xd8, 0x35, 0xac, 0xdd, 0xfc, 0x8e, 0x70, 0xd7, 0x4a, 0xef,"#,
r#"                0x66, 0x95, 0xe1, 0x28,"#,
r#"            ],"#,
r#"        );"#,
r#"    }"#,
r#"}"#]

/-- `src/pbkdf2.rs` -/
def pbkdf2 : List String := [
r#"//! # PBKDF2"#,
r#"//!"#,
r#"//! Implementation of PBKDF2 key derivation algorithm according to"#,
r#"//! [RFC 2898][rfc]."#,
r#"//!"#,
r#"//! [rfc]: https://tools.ietf.org/html/rfc2898#section-5.2"#,
r#"//!"#,
r#""#,
r#"use crate::hmac::HMac;"#,
r#"use crate::sha256::DIGEST_SIZE;"#,
r#""#,
r#"// See: https://tools.ietf.org/html/rfc2898#section-5.2"#,
r#""#,
r#"///"#,
r#"/// Derive key using `password`, `salt`, and `c` rounds."#,
r#"///"#,
r#"/// Usage:"#,
r#"/// ```rust"#,
r#"/// extern crate dumb_crypto;"#,
r#"///"#,
r#"/// use dumb_crypto::pbkdf2::pbkdf2_sha256;"#,
r#"///"#,
r#"/// let mut out: [u8; 8] = [0; 8];"#,
r#"///"#,
r#"/// pbkdf2_sha256(b"password", b"salt", 100, &mut out);"#,
r#"///"#,
r#"/// assert_eq!(out.to_vec(), vec!["#,
r#"///      0x07, 0xe6, 0x99, 0x71, 0x80, 0xcf, 0x7f, 0x12,"#,
r#"/// ]);"#,
r#"/// ```"#,
r#"///"#,
r#"pub fn pbkdf2_sha256(password: &[u8], salt: &[u8], c: usize, out: &mut [u8]) {"#,
r#"    //"#,
r#"    // Terminology:"#,
r#"    //   P = password"#,
r#"    //   S = salt"#,
r#"    //   DK = out"#,
r#"    //   dkLen = out_len"#,
r#"    //"#,
r#""#,
r#"    // 1. If dkLen > (2^32 - 1) * hLen, output "derived key too long" and stop."#,
r#"    // (skip)"#,
r#""#,
r#"    // 2. Let l be the number of hLen-octet blocks in the derived key,"#,
r#"    //    rounding up, and let r be the number of octets in the last"#,
r#"    //    block:"#,
r#"    //"#,
r#"    //               l = CEIL (dkLen / hLen) ,"#,
r#"    //               r = dkLen - (l - 1) * hLen ."#,
r#"    //"#,
r#"    //    Here, CEIL (x) is the "ceiling" function, i.e. the smallest"#,
r#"    //    integer greater than, or equal to, x."#,
r#"    //"#,
r#""#,
r#"    let l: usize = (out.len() + DIGEST_SIZE - 1) / DIGEST_SIZE;"#,
r#""#,
r#"    // NOTE: unused"#,
r#"    // let r = out.len() - (l - 1) * DIGEST_SIZE;"#,
r#""#,
r#"    // 3. For each block of the derived key apply the function F defined"#,
r#"    //    below to the password P, the salt S, the iteration count c, and"#,
r#"    //    the block index to compute the block:"#,
r#"    //"#,
r#"    //               T_1 = F (P, S, c, 1) ,"#,
r#"    //               T_2 = F (P, S, c, 2) ,"#,
r#"    //               ..."#,
r#"    //               T_l = F (P, S, c, l) ,"#,
r#"    //"#,
r#"    //    where the function F is defined as the exclusive-or sum of the"#,
r#"    //    first c iterates of the underlying pseudorandom function PRF"#,
r#"    //    applied to the password P and the concatenation of the salt S"#,
r#"    //    and the block index i:"#,
r#"    //"#,
r#"    //               F (P, S, c, i) = U_1 \xor U_2 \xor ... \xor U_c"#,
r#"    //"#,
r#"    //    where"#,
r#"    //"#,
r#"    //               U_1 = PRF (P, S || INT (i)) ,"#,
r#"    //               U_2 = PRF (P, U_1) ,"#,
r#"    //               ..."#,
r#"    //               U_c = PRF (P, U_{c-1}) ."#,
r#"    //"#,
r#"    //    Here, INT (i) is a four-octet encoding of the integer i, most"#,
r#"    //    significant octet first."#,
r#"    //"#,
r#"    for i in 1..=l {"#,
r#"        let ctr: [u8; 4] = [(i >> 24) as u8, (i >> 16) as u8, (i >> 8) as u8, i as u8];"#,
r#""#,
r#"        // U_1 = PRF (P, S || INT (i))"#,
r#"        let mut hmac = HMac::new(password);"#,
r#"        hmac.update(salt);"#,
r#"        hmac.update(&ctr);"#,
r#"        let mut u = hmac.digest();"#,
r#"        let mut t = u;"#,
r#""#,
r#"        for _j in 2..=c {"#,
r#"            // U_c = PRF (P, U_{c-1})"#,
r#"            let mut hmac = HMac::new(password);"#,
r#"            hmac.update(&u);"#,
r#"            u = hmac.digest();"#,
r#""#,
r#"            // Xor Us"#,
r#"            for k in 0..u.len() {"#,
r#"                t[k] ^= u[k];"#,
r#"            }"#,
r#"        }"#,
r#""#,
r#"        // Copy out the results"#,
r#"        let start = (i - 1) * DIGEST_SIZE;"#,
r#"        let end = std::cmp::min(i * DIGEST_SIZE, out.len());"#,
r#"        out[start..end].copy_from_slice(&t[..(end - start)]);"#,
r#"    }"#,
r#"}"#,
r#""#,
r#"#[cfg(test)]"#,
r#"mod tests {"#,
r#"    use super::*;"#,
r#""#,
r#"    //"#,
r#"    // See: https://tools.ietf.org/html/draft-josefsson-scrypt-kdf-03#page-10"#,
r#"    //"#,
r#""#,
r#"    #[test]"#,
r#"    fn it_should_compute_digest_for_vec0() {"#,
r#"        let mut out: [u8; 64] = [0; 64];"#,
r#""#,
r#"        pbkdf2_sha256(b"passwd", b"salt", 1, &mut out);"#,
r#"        assert_eq!("#,
r#"            out.to_vec(),"#,
r#"            vec!["#,
r#"                0x55, 0xac, 0x04, 0x6e, 0x56, 0xe3, 0x08, 0x9f, 0xec, 0x16, 0x91, 0xc2, 0x25, 0x44,"#,
r#"                0xb6, 0x05, 0xf9, 0x41, 0x85, 0x21, 0x6d, 0xde, 0x04, 0x65, 0xe6, 0x8b, 0x9d, 0x57,"#,
r#"                0xc2, 0x0d, 0xac, 0xbc, 0x49, 0xca, 0x9c, 0xcc, 0xf1, 0x79, 0xb6, 0x45, 0x99, 0x16,"#,
r#"                0x64, 0xb3, 0x9d, 0x77, 0xef, 0x31, 0x7c, 0x71, 0xb8, 0x45, 0xb1, 0xe3, 0x0b, 0xd5,"#,
r#"                0x09, 0x11, 0x20, 0x41, 0xd3, 0xa1, 0x97, 0x83,"#,
r#"            ]"#,
r#"        );"#,
r#"    }"#,
r#""#,
r#"    #[test]"#,
r#"    fn it_should_compute_digest_for_vec1() {"#,
r#"        let mut out: [u8; 64] = [0; 64];"#,
r#""#,
r#"        pbkdf2_sha256(b"Password", b"NaCl", 80000, &mut out);"#,
r#"        assert_eq!("#,
r#"            out.to_vec(),"#,
r#"            vec!["#,
r#"                0x4d, 0xdc, 0xd8, 0xf6, 0x0b, 0x98, 0xbe, 0x21, 0x83, 0x0c, 0xee, 0x5e, 0xf2, 0x27,"#,
r#"                0x01, 0xf9, 0x64, 0x1a, 0x44, 0x18, 0xd0, 0x4c, 0x04, 0x14, 0xae, 0xff, 0x08, 0x87,"#,
r#"                0x6b, 0x34, 0xab, 0x56, 0xa1, 0xd4, 0x25, 0xa1, 0x22, 0x58, 0x33, 0x54, 0x9a, 0xdb,"#,
r#"                0x84, 0x1b, 0x51, 0xc9, 0xb3, 0x17, 0x6a, 0x27, 0x2b, 0xde, 0xbb, 0xa1, 0xd0, 0x78,"#,
r#"                0x47, 0x8f, 0x62, 0xb3, 0x97, 0xf3, 0x3c, 0x8d,"#,
r#"            ]"#,
r#"        );"#,
r#"    }"#,
r#"}"#]

/-- `src/salsa20.rs` -/
def salsa20 : List String := [
r#"//! # Salsa20"#,
r#"//!"#,
r#"//! Implementation of salsa20 algorithm according to [the specification][spec]."#,
r#"//!"#,
r#"//! [spec]: http://cr.yp.to/snuffle/spec.pdf"#,
r#"//!"#,
r#""#,
r#"/// Algorithm block size"#,
r#"pub const BLOCK_SIZE: usize = 64;"#,
r#""#,
r#"// http://cr.yp.to/snuffle/spec.pdf"#,
r#"fn rotl(n: u32, s: u8) -> u32 {"#,
r#"    (n << s) | (n >> (32 - s))"#,
r#"}"#,
r#""#,
r#"fn quarterround(y: &[u32], z: &mut [u32]) {"#,
r#"    //"#,
r#"    // If y = (y0, y1, y2, y3) then quarterround(y) = (z0, z1, z2, z3) where"#,
r#"    //"#,
r#"    //     z1 = y1 ⊕ ((y0 + y3) <<< 7),"#,
r#"    //     z2 = y2 ⊕ ((z1 + y0) <<< 9),"#,
r#"    //     z3 = y3 ⊕ ((z2 + z1) <<< 13),"#,
r#"    //     z0 = y0 ⊕ ((z3 + z2) <<< 18)."#,
r#"    //"#,
r#"    z[1] = y[1] ^ rotl(wrapping_sum!(y[0], y[3]), 7);"#,
r#"    z[2] = y[2] ^ rotl(wrapping_sum!(z[1], y[0]), 9);"#,
r#"    z[3] = y[3] ^ rotl(wrapping_sum!(z[2], z[1]), 13);"#,
r#"    z[0] = y[0] ^ rotl(wrapping_sum!(z[3], z[2]), 18);"#,
r#"}"#,
r#""#,
r#"fn rowround(y: &[u32], z: &mut [u32]) {"#,
r#"    //"#,
r#"    // If y = (y0, y1, y2, y3, . . . , y15) then"#,
r#"    // rowround(y) = (z0, z1, z2, z3, . . . , z15) where"#,
r#"    //"#,
r#"    //     (z0, z1, z2, z3) = quarterround(y0, y1, y2, y3),"#,
r#"    //     (z5, z6, z7, z4) = quarterround(y5, y6, y7, y4),"#,
r#"    //     (z10, z11, z8, z9) = quarterround(y10, y11, y8, y9),"#,
r#"    //     (z15, z12, z13, z14) = quarterround(y15, y12, y13, y14)."#,
r#"    //"#,
r#""#,
r#"    let s0: [u32; 4] = [y[0], y[1], y[2], y[3]];"#,
r#"    let s1: [u32; 4] = [y[5], y[6], y[7], y[4]];"#,
r#"    let s2: [u32; 4] = [y[10], y[11], y[8], y[9]];"#,
r#"    let s3: [u32; 4] = [y[15], y[12], y[13], y[14]];"#,
r#"    let mut t: [u32; 4] = [0; 4];"#,
r#""#,
r#"    quarterround(&s0, &mut t);"#,
r#"    z[0] = t[0];"#,
r#"    z[1] = t[1];"#,
r#"    z[2] = t[2];"#,
r#"    z[3] = t[3];"#,
r#""#,
r#"    quarterround(&s1, &mut t);"#,
r#"    z[5] = t[0];"#,
r#"    z[6] = t[1];"#,
r#"    z[7] = t[2];"#,
r#"    z[4] = t[3];"#,
r#""#,
r#"    quarterround(&s2, &mut t);"#,
r#"    z[10] = t[0];"#,
r#"    z[11] = t[1];"#,
r#"    z[8] = t[2];"#,
r#"    z[9] = t[3];"#,
r#""#,
r#"    quarterround(&s3, &mut t);"#,
r#"    z[15] = t[0];"#,
r#"    z[12] = t[1];"#,
r#"    z[13] = t[2];"#,
r#"    z[14] = t[3];"#,
r#"}"#,
r#""#,
r#"fn columnround(x: &[u32], y: &mut [u32]) {"#,
r#"    //"#,
r#"    // If x = (x0, x1, x2, x3, . . . , x15) then"#,
r#"    // columnround(x) = (y0, y1, y2, y3, . . . , y15) where"#,
r#"    //"#,
r#"    //     (y0, y4, y8, y12) = quarterround(x0, x4, x8, x12),"#,
r#"    //     (y5, y9, y13, y1) = quarterround(x5, x9, x13, x1),"#,
r#"    //     (y10, y14, y2, y6) = quarterround(x10, x14, x2, x6),"#,
r#"    //     (y15, y3, y7, y11) = quarterround(x15, x3, x7, x11)."#,
r#"    //"#,
r#""#,
r#"    let s0: [u32; 4] = [x[0], x[4], x[8], x[12]];"#,
r#"    let s1: [u32; 4] = [x[5], x[9], x[13], x[1]];"#,
r#"    let s2: [u32; 4] = [x[10], x[14], x[2], x[6]];"#,
r#"    let s3: [u32; 4] = [x[15], x[3], x[7], x[11]];"#,
r#"    let mut t: [u32; 4] = [0; 4];"#,
r#""#,
r#"    quarterround(&s0, &mut t);"#,
r#"    y[0] = t[0];"#,
r#"    y[4] = t[1];"#,
r#"    y[8] = t[2];"#,
r#"    y[12] = t[3];"#,
r#""#,
r#"    quarterround(&s1, &mut t);"#,
r#"    y[5] = t[0];"#,
r#"    y[9] = t[1];"#,
r#"    y[13] = t[2];"#,
r#"    y[1] = t[3];"#,
r#""#,
r#"    quarterround(&s2, &mut t);"#,
r#"    y[10] = t[0];"#,
r#"    y[14] = t[1];"#,
r#"    y[2] = t[2];"#,
r#"    y[6] = t[3];"#,
r#""#,
r#"    quarterround(&s3, &mut t);"#,
r#"    y[15] = t[0];"#,
r#"    y[3] = t[1];"#,
r#"    y[7] = t[2];"#,
r#"    y[11] = t[3];"#,
r#"}"#,
r#""#,
r#"fn doubleround(x: &[u32], y: &mut [u32]) {"#,
r#"    //"#,
r#"    // A double round is a column round followed by a row round:"#,
r#"    // doubleround(x) = rowround(columnround(x))."#,
r#"    //"#,
r#"    let mut t: [u32; 16] = [0; 16];"#,
r#"    columnround(x, &mut t);"#,
r#"    rowround(&t, y);"#,
r#"}"#,
r#""#,
r#"fn littleendian(b: &[u8]) -> u32 {"#,
r#"    //"#,
r#"    // If b = (b0, b1, b2, b3) then littleendian(b) ="#,
r#"    // b0 + 2^8 * b1 + 2^16 * b2 + 2^24 * b3."#,
r#"    //"#,
r#"    u32::from(b[0]) | (u32::from(b[1]) << 8) | (u32::from(b[2]) << 16) | (u32::from(b[3]) << 24)"#,
r#"}"#,
r#""#,
r#"fn littleendian_inv(x: u32, y: &mut [u8]) {"#,
r#"    y[0] = x as u8;"#,
r#"    y[1] = (x >> 8) as u8;"#,
r#"    y[2] = (x >> 16) as u8;"#,
r#"    y[3] = (x >> 24) as u8;"#,
r#"}"#,
r#""#,
r#"///"#,
r#"/// Mix `input` using `rounds` of internal transformations."#,
r#"///"#,
r#"/// NOTE: `input` and `output` lengths must be multiples of `BLOCK_SIZE`"#,
r#"/// NOTE: `output` MUST have the same size as `input`."#,
r#"///"#,
r#"/// Usage:"#,
r#"/// ```rust"#,
r#"/// extern crate dumb_crypto;"#,
r#"///"#,
r#"/// use dumb_crypto::salsa20::salsa20;"#,
r#"///"#,
r#"/// let mut out: [u8; 64] = [0; 64];"#,
r#"///"#,
r#"/// salsa20(&[7; 64], 100, &mut out);"#,
r#"///"#,
r#"/// assert_eq!(out.to_vec(), vec!["#,
r#"///     121, 110, 7, 195, 60, 132, 20, 193, 62, 42, 49, 114, 249, 93, 87, 33,"#,
r#"///     249, 93, 87, 33, 121, 110, 7, 195, 60, 132, 20, 193, 62, 42, 49, 114,"#,
r#"///     62, 42, 49, 114, 249, 93, 87, 33, 121, 110, 7, 195, 60, 132, 20, 193,"#,
r#"///     60, 132, 20, 193, 62, 42, 49, 114, 249, 93, 87, 33, 121, 110, 7, 195,"#,
r#"/// ]);"#,
r#"/// ```"#,
r#"///"#,
r#"pub fn salsa20(input: &[u8], rounds: usize, output: &mut [u8]) {"#,
r#"    //"#,
r#"    // In short: Salsa20(x) = x + doubleround^10(x), where each 4-byte sequence is"#,
r#"    // viewed as a word in little-endian form."#,
r#"    //"#,
r#"    // In detail: Starting from x = (x[0], x[1], . . . , x[63]), define"#,
r#"    // x0 = littleendian(x[0], x[1], x[2], x[3]),"#,
r#"    // x1 = littleendian(x[4], x[5], x[6], x[7]),"#,
r#"    // x2 = littleendian(x[8], x[9], x[10], x[11]),"#,
r#"    // ..."#,
r#"    // x15 = littleendian(x[60], x[61], x[62], x[63])."#,
r#"    //"#,
r#"    // Define (z0, z1, . . . , z15) = doubleround10(x0, x1, . . . , x15)."#,
r#"    //"#,
r#"    // Then Salsa20(x) is the concatenation of"#,
r#"    // littleendian^−1(z0 + x0),"#,
r#"    // littleendian^−1(z1 + x1),"#,
r#"    // littleendian^−1(z2 + x2),"#,
r#"    // ..."#,
r#"    // littleendian^−1(z15 + x15)."#,
r#"    //"#,
r#""#,
r#"    let mut x: [u32; 16] = [0; 16];"#,
r#""#,
r#"    for (i, elem) in x.iter_mut().enumerate() {"#,
r#"        let from = i * 4;"#,
r#"        let to = from + 4;"#,
r#"        *elem = littleendian(&input[from..to]);"#,
r#"    }"#,
r#""#,
r#"    let mut z = x;"#,
r#""#,
r#"    for _ in 0..rounds {"#,
r#"        let mut t: [u32; 16] = [0; 16];"#,
r#"        doubleround(&z, &mut t);"#,
r#"        z = t;"#,
r#"    }"#,
r#""#,
r#"    for ((i, &x_elem), &z_elem) in x.iter().enumerate().zip(z.iter()) {"#,
r#"        let from = i * 4;"#,
r#"        let to = from + 4;"#,
r#"        littleendian_inv(wrapping_sum!(x_elem, z_elem), &mut output[from..to]);"#,
r#"    }"#,
r#"}"#,
r#""#,
r#"#[cfg(test)]"#,
r#"mod tests {"#,
r#"    use super::*;"#,
r#""#,
r#"    //"#,
r#"    // http://cr.yp.to/snuffle/spec.pdf"#,
r#"    //"#,
r#""#,
r#"    fn quarter_check(input: [u32; 4], expected: [u32; 4]) {"#,
r#"        let mut out: [u32; 4] = [0; 4];"#,
r#"        quarterround(&input, &mut out);"#,
r#"        assert_eq!(out, expected);"#,
r#"    }"#,
r#""#,
r#"    #[test]"#,
r#"    fn it_should_compute_quarterround_for_vec0() {"#,
r#"        quarter_check("#,
r#"            [0x0000_0000, 0x0000_0000, 0x0000_0000, 0x0000_0000],"#,
r#"            [0x0000_0000, 0x0000_0000, 0x0000_0000, 0x0000_0000],"#,
r#"        );"#,
r#"    }"#,
r#""#,
r#"    #[test]"#,
r#"    fn it_should_compute_quarterround_for_vec1() {"#,
r#"        quarter_check("#,
r#"            [0x0000_0001, 0x0000_0000, 0x0000_0000, 0x0000_0000],"#,
r#"            [0x0800_8145, 0x0000_0080, 0x0001_0200, 0x2050_0000],"#,
r#"        );"#,
r#"    }"#,
r#""#,
r#"    #[test]"#,
r#"    fn it_should_compute_quarterround_for_vec2() {"#,
r#"        quarter_check("#,
r#"            [0x0000_0000, 0x0000_0001, 0x0000_0000, 0x0000_0000],"#,
r#"            [0x8800_0100, 0x0000_0001, 0x0000_0200, 0x0040_2000],"#,
r#"        );"#,
r#"    }"#,
r#""#,
r#"    #[test]"#,
r#"    fn it_should_compute_quarterround_for_vec3() {"#,
r#"        quarter_check("#,
r#"            [0x0000_0000, 0x0000_0000, 0x0000_0001, 0x0000_0000],"#,
r#"            [0x8004_0000, 0x0000_0000, 0x0000_0001, 0x0000_2000],"#,
r#"        );"#,
r#"    }"#,
r#""#,
r#"    #[test]"#,
r#"    fn it_should_compute_quarterround_for_vec4() {"#,
r#"        quarter_check("#,
r#"            [0x0000_0000, 0x0000_0000, 0x0000_0000, 0x0000_0001],"#,
r#"            [0x0004_8044, 0x0000_0080, 0x0001_0000, 0x2010_0001],"#,
r#"        );"#,
r#"    }"#,
r#""#,
r#"    #[test]"#,
r#"    fn it_should_compute_quarterround_for_vec5() {"#,
r#"        quarter_check("#,
r#"            [0xe7e8_c006, 0xc4f9_417d, 0x6479_b4b2, 0x68c6_7137],"#,
r#"            [0xe876_d72b, 0x9361_dfd5, 0xf146_0244, 0x9485_41a3],"#,
r#"        );"#,
r#"    }"#,
r#""#,
r#"    #[test]"#,
r#"    fn it_should_compute_quarterround_for_vec6() {"#,
r#"        quarter_check("#,
r#"            [0xd391_7c5b, 0x55f1_c407, 0x52a5_8a7a, 0x8f88_7a3b],"#,
r#"            [0x3e2f_308c, 0xd90a_8f36, 0x6ab2_a923, 0x2883_524c],"#,
r#"        );"#,
r#"    }"#,
r#""#,
r#"    fn column_check(input: [u32; 16], expected: [u32; 16]) {"#,
r#"        let mut out: [u32; 16] = [0; 16];"#,
r#"        columnround(&input, &mut out);"#,
r#"        assert_eq!(out, expected);"#,
r#"    }"#,
r#""#,
r#"    #[test]"#,
r#"    fn it_should_compute_columnround_for_vec0() {"#,
r#"        column_check("#,
r#"            ["#,
r#"                0x0000_0001,"#,
r#"                0x0000_0000,"#,
r#"                0x0000_0000,"#,
r#"                0x0000_0000,"#,
r#"                0x0000_0001,"#,
r#"                0x0000_0000,"#,
r#"                0x0000_0000,"#,
r#"                0x0000_0000,"#,
r#"                0x0000_0001,"#,
r#"                0x0000_0000,"#,
r#"                0x0000_0000,"#,
r#"                0x0000_0000,"#,
r#"                0x0000_0001,"#,
r#"                0x0000_0000,"#,
r#"                0x0000_0000,"#,
r#"                0x0000_0000,"#,
r#"            ],"#,
r#"            ["#,
r#"                0x1009_0288,"#,
r#"                0x0000_0000,"#,
r#"                0x0000_0000,"#,
r#"                0x0000_0000,"#,
r#"                0x0000_0101,"#,
r#"                0x0000_0000,"#,
r#"                0x0000_0000,"#,
r#"                0x0000_0000,"#,
r#"                0x0002_0401,"#,
r#"                0x0000_0000,"#,
r#"                0x0000_0000,"#,
r#"                0x0000_0000,"#,
r#"                0x40a0_4001,"#,
r#"                0x0000_0000,"#,
r#"                0x0000_0000,"#,
r#"                0x0000_0000,"#,
r#"            ],"#,
r#"        );"#,
r#"    }"#,
r#""#,
r#"    #[test]"#,
r#"    fn it_should_compute_columnround_for_vec1() {"#,
r#"        column_check("#,
r#"            ["#,
r#"                0x0852_1bd6,"#,
r#"                0x1fe8_8837,"#,
r#"                0xbb2a_a576,"#,
r#"                0x3aa2_6365,"#,
r#"                0xc54c_6a5b,"#,
r#"                0x2fc7_4c2f,"#,
r#"                0x6dd3_9cc3,"#,
r#"                0xda0a_64f6,"#,
r#"                0x90a2_f23d,"#,
r#"                0x067f_95a6,"#,
r#"                0x06b3_5f61,"#,
r#"                0x41e4_732e,"#,
r#"                0xe859_c100,"#,
r#"                0xea4d_84b7,"#,
r#"                0x0f61_9bff,"#,
r#"                0xbc6e_965a,"#,
r#"            ],"#,
r#"            ["#,
r#"                0x8c9d_190a,"#,
r#"                0xce8e_4c90,"#,
r#"                0x1ef8_e9d3,"#,
r#"                0x1326_a71a,"#,
r#"                0x90a2_0123,"#,
r#"                0xead3_c4f3,"#,
r#"                0x63a0_91a0,"#,
r#"                0xf070_8d69,"#,
r#"                0x789b_010c,"#,
r#"                0xd195_a681,"#,
r#"                0xeb7d_5504,"#,
r#"                0xa774_135c,"#,
r#"                0x481c_2027,"#,
r#"                0x53a8_e4b5,"#,
r#"                0x4c1f_89c5,"#,
r#"                0x3f78_c9c8,"#,
r#"            ],"#,
r#"        );"#,
r#"    }"#,
r#""#,
r#"    fn double_check(input: [u32; 16], expected: [u32; 16]) {"#,
r#"        let mut out: [u32; 16] = [0; 16];"#,
r#"        doubleround(&input, &mut out);"#,
r#"        assert_eq!(out, expected);"#,
r#"    }"#,
r#""#,
r#"    #[test]"#,
r#"    fn it_should_compute_doubleround_for_vec0() {"#,
r#"        double_check("#,
r#"            ["#,
r#"                0x0000_0001,"#,
r#"                0x0000_0000,"#,
r#"                0x0000_0000,"#,
r#"                0x0000_0000,"#,
r#"                0x0000_0000,"#,
r#"                0x0000_0000,"#,
r#"                0x0000_0000,"#,
r#"                0x0000_0000,"#,
r#"                0x0000_0000,"#,
r#"                0x0000_0000,"#,
r#"                0x0000_0000,"#,
r#"                0x0000_0000,"#,
r#"                0x0000_0000,"#,
r#"                0x0000_0000,"#,
r#"                0x0000_0000,"#,
r#"                0x0000_0000,"#,
r#"            ],"#,
r#"            ["#,
r#"                0x8186_a22d,"#,
r#"                0x0040_a284,"#,
r#"                0x8247_9210,"#,
r#"                0x0692_9051,"#,
r#"                0x0800_0090,"#,
r#"                0x0240_2200,"#,
r#"                0x0000_4000,"#,
r#"                0x0080_0000,"#,
r#"                0x0001_0200,"#,
r#"                0x2040_0000,"#,
r#"                0x0800_8104,"#,
r#"                0x0000_0000,"#,
r#"                0x2050_0000,"#,
r#"                0xa000_0040,"#,
r#"                0x0008_180a,"#,
r#"                0x612a_8020,"#,
r#"            ],"#,
r#"        );"#,
r#"    }"#,
r#""#,
r#"    #[test]"#,
r#"    fn it_should_compute_doubleround_for_vec1() {"#,
r#"        double_check("#,
r#"            ["#,
r#"                0xde50_1066,"#,
r#"                0x6f9e_b8f7,"#,
r#"                0xe4fb_bd9b,"#,
r#"                0x454e_3f57,"#,
r#"                0xb755_40d3,"#,
r#"                0x43e9_3a4c,"#,
r#"                0x3a6f_2aa0,"#,
r#"                0x726d_6b36,"#,
r#"                0x9243_f484,"#,
r#"                0x9145_d1e8,"#,
r#"                0x4fa9_d247,"#,
r#"                0xdc8d_ee11,"#,
r#"                0x054b_f545,"#,
r#"                0x254d_d653,"#,
r#"                0xd942_1b6d,"#,
r#"                0x67b2_76c1,"#,
r#"            ],"#,
r#"            ["#,
r#"                0xccaa_f672,"#,
r#"                0x23d9_60f7,"#,
r#"                0x9153_e63a,"#,
r#"                0xcd9a_60d0,"#,
r#"                0x5044_0492,"#,
r#"                0xf07c_ad19,"#,
r#"                0xae34_4aa0,"#,
r#"                0xdf4c_fdfc,"#,
r#"                0xca53_1c29,"#,
r#"                0x8e79_43db,"#,
r#"                0xac16_80cd,"#,
r#"                0xd503_ca00,"#,
r#"                0xa74b_2ad6,"#,
r#"                0xbc33_1c5c,"#,
r#"                0x1dda_24c7,"#,
r#"                0xee92_8277,"#,
r#"            ],"#,
r#"        );"#,
r#"    }"#,
r#""#,
r#"    fn row_check(input: [u32; 16], expected: [u32; 16]) {"#,
r#"        let mut out: [u32; 16] = [0; 16];"#,
r#"        rowround(&input, &mut out);"#,
r#"        assert_eq!(out, expected);"#,
r#"    }"#,
r#""#,
r#"    #[test]"#,
r#"    fn it_should_compute_rowround_for_vec0() {"#,
r#"        row_check("#,
r#"            ["#,
r#"                0x0000_0001,"#,
r#"                0x0000_0000,"#,
r#"                0x0000_0000,"#,
r#"                0x0000_0000,"#,
r#"                0x0000_0001,"#,
r#"                0x0000_0000,"#,
r#"                0x0000_0000,"#,
r#"                0x0000_0000,"#,
r#"                0x0000_0001,"#,
r#"                0x0000_0000,"#,
r#"                0x0000_0000,"#,
r#"                0x0000_0000,"#,
r#"                0x0000_0001,"#,
r#"                0x0000_0000,"#,
r#"                0x0000_0000,"#,
r#"                0x0000_0000,"#,
r#"            ],"#,
r#"            ["#,
r#"                0x0800_8145,"#,
r#"                0x0000_0080,"#,
r#"                0x0001_0200,"#,
r#"                0x2050_0000,"#,
r#"                0x2010_0001,"#,
r#"                0x0004_8044,"#,
r#"                0x0000_0080,"#,
r#"                0x0001_0000,"#,
r#"                0x0000_0001,"#,
r#"                0x0000_2000,"#,
r#"                0x8004_0000,"#,
r#"                0x0000_0000,"#,
r#"                0x0000_0001,"#,
r#"                0x0000_0200,"#,
r#"                0x0040_2000,"#,
r#"                0x8800_0100,"#,
r#"            ],"#,
r#"        );"#,
r#"    }"#,
r#""#,
r#"    #[test]"#,
r#"    fn it_should_compute_rowround_for_vec1() {"#,
r#"        row_check("#,
r#"            ["#,
r#"                0x0852_1bd6,"#,
r#"                0x1fe8_8837,"#,
r#"                0xbb2a_a576,"#,
r#"                0x3aa2_6365,"#,
r#"                0xc54c_6a5b,"#,
r#"                0x2fc7_4c2f,"#,
r#"                0x6dd3_9cc3,"#,
r#"                0xda0a_64f6,"#,
r#"                0x90a2_f23d,"#,
r#"                0x067f_95a6,"#,
r#"                0x06b3_5f61,"#,
r#"                0x41e4_732e,"#,
r#"                0xe859_c100,"#,
r#"                0xea4d_84b7,"#,
r#"                0x0f61_9bff,"#,
r#"                0xbc6e_965a,"#,
r#"            ],"#,
r#"            ["#,
r#"                0xa890_d39d,"#,
r#"                0x65d7_1596,"#,
r#"                0xe948_7daa,"#,
r#"                0xc8ca_6a86,"#,
r#"                0x949d_2192,"#,
r#"                0x764b_7754,"#,
r#"                0xe408_d9b9,"#,
r#"                0x7a41_b4d1,"#,
r#"                0x3402_e183,"#,
r#"                0x3c3a_f432,"#,
r#"                0x5066_9f96,"#,
r#"                0xd89e_f0a8,"#,
r#"                0x0040_ede5,"#,
r#"                0xb545_fbce,"#,
r#"                0xd257_ed4f,"#,
r#"                0x1818_882d,"#,
r#"            ],"#,
r#"        );"#,
r#"    }"#,
r#""#,
r#"    fn check(input: [u8; 64], rounds: usize, expected: [u8; 64]) {"#,
r#"        let mut out: [u8; 64] = [0; 64];"#,
r#"        salsa20(&input, rounds, &mut out);"#,
r#"        assert_eq!(out.to_vec(), expected.to_vec());"#,
r#"    }"#,
r#""#,
r#"    #[test]"#,
r#"    fn it_should_compute_salsa20_for_vec0() {"#,
r#"        check("#,
r#"            ["#,
r#"                0, 0, 0, 0, 0, 0, 0, 0, 0, 0, 0, 0, 0, 0, 0, 0, 0, 0, 0, 0, 0, 0, 0, 0, 0, 0, 0, 0,"#,
r#"                0, 0, 0, 0, 0, 0, 0, 0, 0, 0, 0, 0, 0, 0, 0, 0, 0, 0, 0, 0, 0, 0, 0, 0, 0, 0, 0, 0,"#,
r#"                0, 0, 0, 0, 0, 0, 0, 0,"#,
r#"            ],"#,
r#"            10,"#,
r#"            ["#,
r#"                0, 0, 0, 0, 0, 0, 0, 0, 0, 0, 0, 0, 0, 0, 0, 0, 0, 0, 0, 0, 0, 0, 0, 0, 0, 0, 0, 0,"#,
r#"                0, 0, 0, 0, 0, 0, 0, 0, 0, 0, 0, 0, 0, 0, 0, 0, 0, 0, 0, 0, 0, 0, 0, 0, 0, 0, 0, 0,"#,
r#"                0, 0, 0, 0, 0, 0, 0, 0,"#,
r#"            ],"#,
r#"        );"#,
r#"    }"#,
r#""#,
r#"    #[test]"#,
r#"    fn it_should_compute_salsa20_for_vec1() {"#,
r#"        check("#,
r#"            ["#,
r#"                211, 159, 13, 115, 76, 55, 82, 183, 3, 117, 222, 37, 191, 187, 234, 136, 49, 237,"#,
r#"                179, 48, 1, 106, 178, 219, 175, 199, 166, 48, 86, 16, 179, 207, 31, 240, 32, 63,"#,
r#"                15, 83, 93, 161, 116, 147, 48, 113, 238, 55, 204, 36, 79, 201, 235, 79, 3, 81, 156,"#,
r#"                47, 203, 26, 244, 243, 88, 118, 104, 54,"#,
r#"            ],"#,
r#"            10,"#,
r#"            ["#,
r#"                109, 42, 178, 168, 156, 240, 248, 238, 168, 196, 190, 203, 26, 110, 170, 154, 29,"#,
r#"                29, 150, 26, 150, 30, 235, 249, 190, 163, 251, 48, 69, 144, 51, 57, 118, 40, 152,"#,
r#"                157, 180, 57, 27, 94, 107, 42, 236, 35, 27, 111, 114, 114, 219, 236, 232, 135, 111,"#,
r#"                155, 110, 18, 24, 232, 95, 158, 179, 19, 48, 202,"#,
r#"            ],"#,
r#"        );"#,
r#"    }"#,
r#""#,
r#"    #[test]"#,
r#"    fn it_should_compute_salsa20_for_vec2() {"#,
r#"        check("#,
r#"            ["#,
r#"                88, 118, 104, 54, 79, 201, 235, 79, 3, 81, 156, 47, 203, 26, 244, 243, 191, 187,"#,
r#"                234, 136, 211, 159, 13, 115, 76, 55, 82, 183, 3, 117, 222, 37, 86, 16, 179, 207,"#,
r#"                49, 237, 179, 48, 1, 106, 178, 219, 175, 199, 166, 48, 238, 55, 204, 36, 31, 240,"#,
r#"                32, 63, 15, 83, 93, 161, 116, 147, 48, 113,"#,
r#"            ],"#,
r#"            10,"#,
r#"            ["#,
r#"                179, 19, 48, 202, 219, 236, 232, 135, 111, 155, 110, 18, 24, 232, 95, 158, 26, 110,"#,
r#"                170, 154, 109, 42, 178, 168, 156, 240, 248, 238, 168, 196, 190, 203, 69, 144, 51,"#,
r#"                57, 29, 29, 150, 26, 150, 30, 235, 249, 190, 163, 251, 48, 27, 111, 114, 114, 118,"#,
r#"                40, 152, 157, 180, 57, 27, 94, 107, 42, 236, 35,"#,
r#"            ],"#,
r#"        );"#,
r#"    }"#,
r#""#,
r#"    // https://tools.ietf.org/html/draft-josefsson-scrypt-kdf-03#page-8"#,
r#""#,
r#"    #[test]"#,
r#"    fn it_should_compute_salsa20_for_vec3() {"#,
r#"        check("#,
r#"            ["#,
r#"                0x7e, 0x87, 0x9a, 0x21, 0x4f, 0x3e, 0xc9, 0x86, 0x7c, 0xa9, 0x40, 0xe6, 0x41, 0x71,"#,
r#"                0x8f, 0x26, 0xba, 0xee, 0x55, 0x5b, 0x8c, 0x61, 0xc1, 0xb5, 0x0d, 0xf8, 0x46, 0x11,"#,
r#"                0x6d, 0xcd, 0x3b, 0x1d, 0xee, 0x24, 0xf3, 0x19, 0xdf, 0x9b, 0x3d, 0x85, 0x14, 0x12,"#,
r#"                0x1e, 0x4b, 0x5a, 0xc5, 0xaa, 0x32, 0x76, 0x02, 0x1d, 0x29, 0x09, 0xc7, 0x48, 0x29,"#,
r#"                0xed, 0xeb, 0xc6, 0x8d, 0xb8, 0xb8, 0xc2, 0x5e,"#,
r#"            ],"#,
r#"            4,"#,
r#"            ["#,
r#"                0xa4, 0x1f, 0x85, 0x9c, 0x66, 0x08, 0xcc, 0x99, 0x3b, 0x81, 0xca, 0xcb, 0x02, 0x0c,"#,
r#"                0xef, 0x05, 0x04, 0x4b, 0x21, 0x81, 0xa2, 0xfd, 0x33, 0x7d, 0xfd, 0x7b, 0x1c, 0x63,"#,
r#"                0x96, 0x68, 0x2f, 0x29, 0xb4, 0x39, 0x31, 0x68, 0xe3, 0xc9, 0xe6, 0xbc, 0xfe, 0x6b,"#,
r#"                0xc5, 0xb7, 0xa0, 0x6d, 0x96, 0xba, 0xe4, 0x24, 0xcc, 0x10, 0x2c, 0x91, 0x74, 0x5c,"#,
r#"                0x24, 0xad, 0x67, 0x3d, 0xc7, 0x61, 0x8f, 0x81,"#,
r#"            ],"#,
r#"        );"#,
r#"    }"#,
r#"}"#]

/-- `src/scrypt.rs` -/
def scrypt : List String := [
r#"//! # Scrypt"#,
r#"//!"#,
r#"//! Implementation of scrypt key derivation algorithm according to"#,
r#"//! [RFC][rfc]."#,
r#"//!"#,
r#"//! [rfc]: https://tools.ietf.org/html/draft-josefsson-scrypt-kdf-03"#,
r#"//!"#,
r#""#,
r#"use crate::pbkdf2::pbkdf2_sha256;"#,
r#"use crate::salsa20::{salsa20, BLOCK_SIZE as SALSA_BLOCK_SIZE};"#,
r#""#,
r#"const SALSA_ROUNDS: usize = 4;"#,
r#"const PBKDF2_ROUNDS: usize = 1;"#,
r#"const BLOCK_SIZE: usize = 64;"#,
r#""#,
r#"use std::error::Error;"#,
r#"use std::fmt;"#,
r#"use std::fmt::Display;"#,
r#""#,
r#"type Block = Vec<u8>;"#,
r#""#,
r#"#[derive(Debug, PartialEq)]"#,
r#"pub enum ScryptError {"#,
r#"    RIsTooSmall,"#,
r#"    NIsTooSmall,"#,
r#"    NIsNotAPowerOfTwo,"#,
r#"    PIsTooSmall,"#,
r#"}"#,
r#""#,
r#"impl Display for ScryptError {"#,
r#"    fn fmt(&self, f: &mut fmt::Formatter) -> fmt::Result {"#,
r#"        write!(f, "ScryptError: {}", self.description())"#,
r#"    }"#,
r#"}"#,
r#""#,
r#"impl Error for ScryptError {"#,
r#"    fn description(&self) -> &str {"#,
r#"        match self {"#,
r#"            ScryptError::RIsTooSmall => "`r` must be larger than 1","#,
r#"            ScryptError::NIsTooSmall => "`n` must be larger than 1","#,
r#"            ScryptError::NIsNotAPowerOfTwo => "`n` must be a power of two","#,
r#"            ScryptError::PIsTooSmall => "`p` must be larger than 1","#,
r#"        }"#,
r#"    }"#,
r#"}"#,
r#""#,
r#"///"#,
r#"/// Main scrypt structure."#,
r#"///"#,
r#"/// Usage:"#,
r#"/// ```rust"#,
r#"/// extern crate dumb_crypto;"#,
r#"///"#,
r#"/// use dumb_crypto::scrypt::Scrypt;"#,
r#"///"#,
r#"/// let scrypt = Scrypt::new(1, 128, 1);"#,
r#"///"#,
r#"/// let mut out: [u8; 8] = [0; 8];"#,
r#"///"#,
r#"/// scrypt.derive(b"passphrase", b"salt", &mut out).unwrap();"#,
r#"///"#,
r#"/// assert_eq!(out.to_vec(), vec!["#,
r#"///     79, 35, 225, 99, 145, 145, 172, 245,"#,
r#"/// ]);"#,
r#"/// ```"#,
r#"///"#,
r#"pub struct Scrypt {"#,
r#"    r: usize,"#,
r#"    n: usize,"#,
r#"    p: usize,"#,
r#"}"#,
r#""#,
r#"fn block_xor(a: &[u8], b: &[u8]) -> Block {"#,
r#"    a.iter().zip(b.iter()).map(|(a, b)| a ^ b).collect()"#,
r#"}"#,
r#""#,
r#"fn integerify(x: &[Block]) -> u64 {"#,
r#"    let last = &x[x.len() - 1];"#,
r#"    let tail = &last[(last.len() - SALSA_BLOCK_SIZE)..];"#,
r#""#,
r#"    u64::from(tail[0])"#,
r#"        | (u64::from(tail[1]) << 8)"#,
r#"        | (u64::from(tail[2]) << 16)"#,
r#"        | (u64::from(tail[3]) << 24)"#,
r#"        | (u64::from(tail[4]) << 32)"#,
r#"        | (u64::from(tail[5]) << 40)"#,
r#"        | (u64::from(tail[6]) << 48)"#,
r#"        | (u64::from(tail[7]) << 56)"#,
r#"}"#,
r#""#,
r#"impl Scrypt {"#,
r#"    ///"#,
r#"    /// Create new instance of Scrypt."#,
r#"    ///"#,
r#"    /// Arguments:"#,
r#"    /// - `r` Block size parameter, must be larger than 1"#,
r#"    /// - `n` CPU/Memory cost parameter, must be larger than 1,"#,
r#"    ///       a power of 2 and less than 2 ^ (16 * r)"#,
r#"    /// - `p` Parallelization parameter, a positive integer"#,
r#"    ///       less than or equal to (2^32-1) / (4 * r)"#,
r#"    ///       where hLen is 32 and MFlen is 128 * r."#,
r#"    ///"#,
r#"    pub fn new(r: usize, n: usize, p: usize) -> Self {"#,
r#"        Self { r, n, p }"#,
r#"    }"#,
r#""#,
r#"    fn block_mix(self: &Scrypt, b: &[Block]) -> Vec<Block> {"#,
r#"        //"#,
r#"        // Algorithm scryptBlockMix"#,
r#"        //"#,
r#"        // Parameters:"#,
r#"        //          r       Block size parameter."#,
r#"        //"#,
r#"        // Input:"#,
r#"        //          B[0], ..., B[2 * r - 1]"#,
r#"        //                 Input vector of 2 * r 64-octet blocks."#,
r#"        //"#,
r#"        // Output:"#,
r#"        //          B'[0], ..., B'[2 * r - 1]"#,
r#"        //                  Output vector of 2 * r 64-octet blocks."#,
r#"        //"#,
r#"        // Steps:"#,
r#"        //"#,
r#"        //   1. X = B[2 * r - 1]"#,
r#"        //"#,
r#"        //   2. for i = 0 to 2 * r - 1 do"#,
r#"        //        T = X xor B[i]"#,
r#"        //        X = Salsa (T)"#,
r#"        //        Y[i] = X"#,
r#"        //      end for"#,
r#"        //"#,
r#"        //   3. B' = (Y[0], Y[2], ..., Y[2 * r - 2],"#,
r#"        //            Y[1], Y[3], ..., Y[2 * r - 1])"#,
r#"        //"#,
r#""#,
r#"        // Step 1"#,
r#"        let mut x = b[2 * self.r - 1].clone();"#,
r#""#,
r#"        // Step 2"#,
r#"        let mut y: Vec<Block> = Vec::with_capacity(2 * self.r);"#,
r#""#,
r#"        for b_elem in b.iter() {"#,
r#"            let t = block_xor(&x, b_elem);"#,
r#"            salsa20(&t, SALSA_ROUNDS, &mut x);"#,
r#"            y.push(x.clone());"#,
r#"        }"#,
r#""#,
r#"        // Step 3"#,
r#"        let mut bs_head: Vec<Block> = Vec::with_capacity(2 * self.r);"#,
r#"        let mut bs_tail: Vec<Block> = Vec::with_capacity(self.r);"#,
r#"        for (i, y_elem) in y.into_iter().enumerate() {"#,
r#"            if i % 2 == 0 {"#,
r#"                bs_head.push(y_elem);"#,
r#"            } else {"#,
r#"                bs_tail.push(y_elem);"#,
r#"            }"#,
r#"        }"#,
r#"        bs_head.append(&mut bs_tail);"#,
r#"        bs_head"#,
r#"    }"#,
r#""#,
r#"    fn ro_mix(self: &Scrypt, b: Vec<Block>) -> Vec<Block> {"#,
r#"        //"#,
r#"        // Algorithm scryptROMix"#,
r#"        //"#,
r#"        //   Input:"#,
r#"        //            r       Block size parameter."#,
r#"        //            B       Input octet vector of length 128 * r octets."#,
r#"        //            N       CPU/Memory cost parameter, must be larger than 1,"#,
r#"        //                    a power of 2 and less than 2^(128 * r / 8)."#,
r#"        //"#,
r#"        //   Output:"#,
r#"        //            B'      Output octet vector of length 128 * r octets."#,
r#"        //"#,
r#"        //   Steps:"#,
r#"        //"#,
r#"        //     1. X = B"#,
r#"        //"#,
r#"        //     2. for i = 0 to N - 1 do"#,
r#"        //          V[i] = X"#,
r#"        //          X = scryptBlockMix (X)"#,
r#"        //        end for"#,
r#"        //"#,
r#"        //     3. for i = 0 to N - 1 do"#,
r#"        //          j = Integerify (X) mod N"#,
r#"        //                 where Integerify (B[0] ... B[2 * r - 1]) is defined"#,
r#"        //                 as the result of interpreting B[2 * r - 1] as a"#,
r#"        //                 little-endian integer."#,
r#"        //          T = X xor V[j]"#,
r#"        //          X = scryptBlockMix (T)"#,
r#"        //        end for"#,
r#"        //"#,
r#"        //     4. B' = X"#,
r#"        //"#,
r#""#,
r#"        // Step 1"#,
r#"        let mut x = b;"#,
r#""#,
r#"        // Step 2"#,
r#"        let mut v: Vec<Vec<Block>> = Vec::with_capacity(self.n);"#,
r#"        for _i in 0..self.n {"#,
r#"            let t = self.block_mix(&x);"#,
r#"            v.push(x);"#,
r#"            x = t;"#,
r#"        }"#,
r#""#,
r#"        // Step 3"#,
r#"        for _i in 0..self.n {"#,
r#"            let j = (integerify(&x) as usize) % self.n;"#,
r#"            let t: Vec<Block> = x"#,
r#"                .iter()"#,
r#"                .zip(v[j].iter())"#,
r#"                .map(|(x_block, v_block)| block_xor(x_block, v_block))"#,
r#"                .collect();"#,
r#"            x = self.block_mix(&t);"#,
r#"        }"#,
r#""#,
r#"        x"#,
r#"    }"#,
r#""#,
r#"    ///"#,
r#"    /// Derive secret string using `passphrase` and `salt`."#,
r#"    ///"#,
r#"    pub fn derive("#,
r#"        self: &Scrypt,"#,
r#"        passphrase: &[u8],"#,
r#"        salt: &[u8],"#,
r#"        out: &mut [u8],"#,
r#"    ) -> Result<(), ScryptError> {"#,
r#"        if self.r < 1 {"#,
r#"            return Err(ScryptError::RIsTooSmall);"#,
r#"        }"#,
r#""#,
r#"        if self.n < 1 {"#,
r#"            return Err(ScryptError::NIsTooSmall);"#,
r#"        }"#,
r#""#,
r#"        if ((self.n - 1) & self.n) != 0 {"#,
r#"            return Err(ScryptError::NIsNotAPowerOfTwo);"#,
r#"        }"#,
r#""#,
r#"        if self.p < 1 {"#,
r#"            return Err(ScryptError::PIsTooSmall);"#,
r#"        }"#,
r#""#,
r#"        //"#,
r#"        //   Algorithm scrypt"#,
r#"        //"#,
r#"        //   Input:"#,
r#"        //            P       Passphrase, an octet string."#,
r#"        //            S       Salt, an octet string."#,
r#"        //            N       CPU/Memory cost parameter, must be larger than 1,"#,
r#"        //                    a power of 2 and less than 2^(128 * r / 8)."#,
r#"        //            r       Block size parameter."#,
r#"        //            p       Parallelization parameter, a positive integer"#,
r#"        //                    less than or equal to ((2^32-1) * hLen) / MFLen"#,
r#"        //                    where hLen is 32 and MFlen is 128 * r."#,
r#"        //            dkLen   Intended output length in octets of the derived"#,
r#"        //                    key; a positive integer less than or equal to"#,
r#"        //                    (2^32 - 1) * hLen where hLen is 32."#,
r#"        //"#,
r#"        //   Output:"#,
r#"        //            DK      Derived key, of length dkLen octets."#,
r#"        //"#,
r#"        //   Steps:"#,
r#"        //"#,
r#"        //     1. B[0] || B[1] || ... || B[p - 1] ="#,
r#"        //          PBKDF2-HMAC-SHA256 (P, S, 1, p * 128 * r)"#,
r#"        //"#,
r#"        //     2. for i = 0 to p - 1 do"#,
r#"        //          B[i] = scryptROMix (r, B[i], N)"#,
r#"        //        end for"#,
r#"        //"#,
r#"        //     3. DK = PBKDF2-HMAC-SHA256 (P, B[0] || B[1] || ... || B[p - 1],"#,
r#"        //                                 1, dkLen)"#,
r#"        //"#,
r#""#,
r#"        // Step 1"#,
r#"        let mut raw_b: Vec<u8> = vec![0; self.p * 2 * BLOCK_SIZE * self.r];"#,
r#"        pbkdf2_sha256(passphrase, salt, PBKDF2_ROUNDS, &mut raw_b);"#,
r#""#,
r#"        let mut b: Vec<Vec<Block>> = raw_b"#,
r#"            .chunks_exact(2 * BLOCK_SIZE * self.r)"#,
r#"            .map(|chunk| {"#,
r#"                chunk"#,
r#"                    .chunks_exact(BLOCK_SIZE)"#,
r#"                    .map(|sub_chunk| sub_chunk.to_vec())"#,
r#"                    .collect()"#,
r#"            })"#,
r#"            .collect();"#,
r#""#,
r#"        // Step 2"#,
r#"        b = b.into_iter().map(|elem| self.ro_mix(elem)).collect();"#,
r#""#,
r#"        // Step 3"#,
r#"        let b_salt: Vec<u8> = b.into_iter().flatten().flatten().collect();"#,
r#"        pbkdf2_sha256(passphrase, &b_salt, PBKDF2_ROUNDS, out);"#,
r#""#,
r#"        Ok(())"#,
r#"    }"#,
r#"}"#,
r#""#,
r#"#[cfg(test)]"#,
r#"mod tests {"#,
r#"    use super::*;"#,
r#""#,
r#"    // https://tools.ietf.org/html/draft-josefsson-scrypt-kdf-03#page-8"#,
r#""#,
r#"    fn check_mix(r: usize, input: &[Block], expected: &[Block]) {"#,
r#"        let s = Scrypt::new(r, 1, 1);"#,
r#"        assert_eq!(s.block_mix(input), expected);"#,
r#"    }"#,
r#""#,
r#"    #[test]"#,
r#"    fn it_should_compute_block_mix_for_vec0() {"#,
r#"        check_mix("#,
r#"            1,"#,
r#"            &["#,
r#"                vec!["#,
r#"                    0xf7, 0xce, 0x0b, 0x65, 0x3d, 0x2d, 0x72, 0xa4, 0x10, 0x8c, 0xf5, 0xab, 0xe9,"#,
r#"                    0x12, 0xff, 0xdd, 0x77, 0x76, 0x16, 0xdb, 0xbb, 0x27, 0xa7, 0x0e, 0x82, 0x04,"#,
r#"                    0xf3, 0xae, 0x2d, 0x0f, 0x6f, 0xad, 0x89, 0xf6, 0x8f, 0x48, 0x11, 0xd1, 0xe8,"#,
r#"                    0x7b, 0xcc, 0x3b, 0xd7, 0x40, 0x0a, 0x9f, 0xfd, 0x29, 0x09, 0x4f, 0x01, 0x84,"#,
r#"                    0x63, 0x95, 0x74, 0xf3, 0x9a, 0xe5, 0xa1, 0x31, 0x52, 0x17, 0xbc, 0xd7,"#,
r#"                ],"#,
r#"                vec!["#,
r#"                    0x89, 0x49, 0x91, 0x44, 0x72, 0x13, 0xbb, 0x22, 0x6c, 0x25, 0xb5, 0x4d, 0xa8,"#,
r#"                    0x63, 0x70, 0xfb, 0xcd, 0x98, 0x43, 0x80, 0x37, 0x46, 0x66, 0xbb, 0x8f, 0xfc,"#,
r#"                    0xb5, 0xbf, 0x40, 0xc2, 0x54, 0xb0, 0x67, 0xd2, 0x7c, 0x51, 0xce, 0x4a, 0xd5,"#,
r#"                    0xfe, 0xd8, 0x29, 0xc9, 0x0b, 0x50, 0x5a, 0x57, 0x1b, 0x7f, 0x4d, 0x1c, 0xad,"#,
r#"                    0x6a, 0x52, 0x3c, 0xda, 0x77, 0x0e, 0x67, 0xbc, 0xea, 0xaf, 0x7e, 0x89,"#,
r#"                ],"#,
r#"            ],"#,
r#"            &["#,
r#"                vec!["#,
r#"                    0xa4, 0x1f, 0x85, 0x9c, 0x66, 0x08, 0xcc, 0x99, 0x3b, 0x81, 0xca, 0xcb, 0x02,"#,
r#"                    0x0c, 0xef, 0x05, 0x04, 0x4b, 0x21, 0x81, 0xa2, 0xfd, 0x33, 0x7d, 0xfd, 0x7b,"#,
r#"                    0x1c, 0x63, 0x96, 0x68, 0x2f, 0x29, 0xb4, 0x39, 0x31, 0x68, 0xe3, 0xc9, 0xe6,"#,
r#"                    0xbc, 0xfe, 0x6b, 0xc5, 0xb7, 0xa0, 0x6d, 0x96, 0xba, 0xe4, 0x24, 0xcc, 0x10,"#,
r#"                    0x2c, 0x91, 0x74, 0x5c, 0x24, 0xad, 0x67, 0x3d, 0xc7, 0x61, 0x8f, 0x81,"#,
r#"                ],"#,
r#"                vec!["#,
r#"                    0x20, 0xed, 0xc9, 0x75, 0x32, 0x38, 0x81, 0xa8, 0x05, 0x40, 0xf6, 0x4c, 0x16,"#,
r#"                    0x2d, 0xcd, 0x3c, 0x21, 0x07, 0x7c, 0xfe, 0x5f, 0x8d, 0x5f, 0xe2, 0xb1, 0xa4,"#,
r#"                    0x16, 0x8f, 0x95, 0x36, 0x78, 0xb7, 0x7d, 0x3b, 0x3d, 0x80, 0x3b, 0x60, 0xe4,"#,
r#"                    0xab, 0x92, 0x09, 0x96, 0xe5, 0x9b, 0x4d, 0x53, 0xb6, 0x5d, 0x2a, 0x22, 0x58,"#,
r#"                    0x77, 0xd5, 0xed, 0xf5, 0x84, 0x2c, 0xb9, 0xf1, 0x4e, 0xef, 0xe4, 0x25,"#,
r#"                ],"#,
r#"            ],"#,
r#"        );"#,
r#"    }"#,
r#""#,
r#"    fn check_ro_mix(r: usize, n: usize, input: &[Block], expected: &[Block]) {"#,
r#"        let s = Scrypt::new(r, n, 1);"#,
r#"        assert_eq!(s.ro_mix(input.to_vec()), expected);"#,
r#"    }"#,
r#""#,
r#"    #[test]"#,
r#"    fn it_should_compute_ro_mix_for_vec0() {"#,
r#"        check_ro_mix("#,
r#"            1,"#,
r#"            16,"#,
r#"            &["#,
r#"                vec!["#,
r#"                    0xf7, 0xce, 0x0b, 0x65, 0x3d, 0x2d, 0x72, 0xa4, 0x10, 0x8c, 0xf5, 0xab, 0xe9,"#,
r#"                    0x12, 0xff, 0xdd, 0x77, 0x76, 0x16, 0xdb, 0xbb, 0x27, 0xa7, 0x0e, 0x82, 0x04,"#,
r#"                    0xf3, 0xae, 0x2d, 0x0f, 0x6f, 0xad, 0x89, 0xf6, 0x8f, 0x48, 0x11, 0xd1, 0xe8,"#,
r#"                    0x7b, 0xcc, 0x3b, 0xd7, 0x40, 0x0a, 0x9f, 0xfd, 0x29, 0x09, 0x4f, 0x01, 0x84,"#,
r#"                    0x63, 0x95, 0x74, 0xf3, 0x9a, 0xe5, 0xa1, 0x31, 0x52, 0x17, 0xbc, 0xd7,"#,
r#"                ],"#,
r#"                vec!["#,
r#"                    0x89, 0x49, 0x91, 0x44, 0x72, 0x13, 0xbb, 0x22, 0x6c, 0x25, 0xb5, 0x4d, 0xa8,"#,
r#"                    0x63, 0x70, 0xfb, 0xcd, 0x98, 0x43, 0x80, 0x37, 0x46, 0x66, 0xbb, 0x8f, 0xfc,"#,
r#"                    0xb5, 0xbf, 0x40, 0xc2, 0x54, 0xb0, 0x67, 0xd2, 0x7c, 0x51, 0xce, 0x4a, 0xd5,"#,
r#"                    0xfe, 0xd8, 0x29, 0xc9, 0x0b, 0x50, 0x5a, 0x57, 0x1b, 0x7f, 0x4d, 0x1c, 0xad,"#,
r#"                    0x6a, 0x52, 0x3c, 0xda, 0x77, 0x0e, 0x67, 0xbc, 0xea, 0xaf, 0x7e, 0x89,"#,
r#"                ],"#,
r#"            ],"#,
r#"            &["#,
r#"                vec!["#,
r#"                    0x79, 0xcc, 0xc1, 0x93, 0x62, 0x9d, 0xeb, 0xca, 0x04, 0x7f, 0x0b, 0x70, 0x60,"#,
r#"                    0x4b, 0xf6, 0xb6, 0x2c, 0xe3, 0xdd, 0x4a, 0x96, 0x26, 0xe3, 0x55, 0xfa, 0xfc,"#,
r#"                    0x61, 0x98, 0xe6, 0xea, 0x2b, 0x46, 0xd5, 0x84, 0x13, 0x67, 0x3b, 0x99, 0xb0,"#,
r#"                    0x29, 0xd6, 0x65, 0xc3, 0x57, 0x60, 0x1f, 0xb4, 0x26, 0xa0, 0xb2, 0xf4, 0xbb,"#,
r#"                    0xa2, 0x00, 0xee, 0x9f, 0x0a, 0x43, 0xd1, 0x9b, 0x57, 0x1a, 0x9c, 0x71,"#,
r#"                ],"#,
r#"                vec!["#,
r#"                    0xef, 0x11, 0x42, 0xe6, 0x5d, 0x5a, 0x26, 0x6f, 0xdd, 0xca, 0x83, 0x2c, 0xe5,"#,
r#"                    0x9f, 0xaa, 0x7c, 0xac, 0x0b, 0x9c, 0xf1, 0xbe, 0x2b, 0xff, 0xca, 0x30, 0x0d,"#,
r#"                    0x01, 0xee, 0x38, 0x76, 0x19, 0xc4, 0xae, 0x12, 0xfd, 0x44, 0x38, 0xf2, 0x03,"#,
r#"                    0xa0, 0xe4, 0xe1, 0xc4, 0x7e, 0xc3, 0x14, 0x86, 0x1f, 0x4e, 0x90, 0x87, 0xcb,"#,
r#"                    0x33, 0x39, 0x6a, 0x68, 0x73, 0xe8, 0xf9, 0xd2, 0x53, 0x9a, 0x4b, 0x8e,"#,
r#"                ],"#,
r#"            ],"#,
r#"        );"#,
r#"    }"#,
r#""#,
r#"    // https://tools.ietf.org/html/draft-josefsson-scrypt-kdf-03#page-10"#,
r#""#,
r#"    #[test]"#,
r#"    fn it_should_compute_scrypt_for_vec0() {"#,
r#"        let s = Scrypt::new(1, 16, 1);"#,
r#""#,
r#"        let mut out: [u8; 64] = [0; 64];"#,
r#"        s.derive(b"", b"", &mut out)"#,
r#"            .expect("derivation to not fail");"#,
r#"        assert_eq!("#,
r#"            out.to_vec(),"#,
r#"            vec!["#,
r#"                0x77, 0xd6, 0x57, 0x62, 0x38, 0x65, 0x7b, 0x20, 0x3b, 0x19, 0xca, 0x42, 0xc1, 0x8a,"#,
r#"                0x04, 0x97, 0xf1, 0x6b, 0x48, 0x44, 0xe3, 0x07, 0x4a, 0xe8, 0xdf, 0xdf, 0xfa, 0x3f,"#,
r#"                0xed, 0xe2, 0x14, 0x42, 0xfc, 0xd0, 0x06, 0x9d, 0xed, 0x09, 0x48, 0xf8, 0x32, 0x6a,"#,
r#"                0x75, 0x3a, 0x0f, 0xc8, 0x1f, 0x17, 0xe8, 0xd3, 0xe0, 0xfb, 0x2e, 0x0d, 0x36, 0x28,"#,
r#"                0xcf, 0x35, 0xe2, 0x0c, 0x38, 0xd1, 0x89, 0x06"#,
r#"            ]"#,
r#"        );"#,
r#"    }"#,
r#""#,
r#"    #[test]"#,
r#"    fn it_should_compute_scrypt_for_vec1() {"#,
r#"        let s = Scrypt::new(8, 1024, 16);"#,
r#""#,
r#"        let mut out: [u8; 64] = [0; 64];"#,
r#"        s.derive(b"password", b"NaCl", &mut out)"#,
r#"            .expect("derivation to not fail");"#,
r#"        assert_eq!("#,
r#"            out.to_vec(),"#,
r#"            vec!["#,
r#"                0xfd, 0xba, 0xbe, 0x1c, 0x9d, 0x34, 0x72, 0x00, 0x78, 0x56, 0xe7, 0x19, 0x0d, 0x01,"#,
r#"                0xe9, 0xfe, 0x7c, 0x6a, 0xd7, 0xcb, 0xc8, 0x23, 0x78, 0x30, 0xe7, 0x73, 0x76, 0x63,"#,
r#"                0x4b, 0x37, 0x31, 0x62, 0x2e, 0xaf, 0x30, 0xd9, 0x2e, 0x22, 0xa3, 0x88, 0x6f, 0xf1,"#,
r#"                0x09, 0x27, 0x9d, 0x98, 0x30, 0xda, 0xc7, 0x27, 0xaf, 0xb9, 0x4a, 0x83, 0xee, 0x6d,"#,
r#"                0x83, 0x60, 0xcb, 0xdf, 0xa2, 0xcc, 0x06, 0x40"#,
r#"            ]"#,
r#"        );"#,
r#"    }"#,
r#""#,
r#"    #[test]"#,
r#"    fn it_should_compute_scrypt_for_vec2() {"#,
r#"        let s = Scrypt::new(8, 16384, 1);"#,
r#""#,
r#"        let mut out: [u8; 64] = [0; 64];"#,
r#"        s.derive(b"pleaseletmein", b"SodiumChloride", &mut out)"#,
r#"            .expect("derivation to not fail");"#,
r#"        assert_eq!("#,
r#"            out.to_vec(),"#,
r#"            vec!["#,
r#"                0x70, 0x23, 0xbd, 0xcb, 0x3a, 0xfd, 0x73, 0x48, 0x46, 0x1c, 0x06, 0xcd, 0x81, 0xfd,"#,
r#"                0x38, 0xeb, 0xfd, 0xa8, 0xfb, 0xba, 0x90, 0x4f, 0x8e, 0x3e, 0xa9, 0xb5, 0x43, 0xf6,"#,
r#"                0x54, 0x5d, 0xa1, 0xf2, 0xd5, 0x43, 0x29, 0x55, 0x61, 0x3f, 0x0f, 0xcf, 0x62, 0xd4,"#,
r#"                0x97, 0x05, 0x24, 0x2a, 0x9a, 0xf9, 0xe6, 0x1e, 0x85, 0xdc, 0x0d, 0x65, 0x1e, 0x40,"#,
r#"                0xdf, 0xcf, 0x01, 0x7b, 0x45, 0x57, 0x58, 0x87"#,
r#"            ]"#,
r#"        );"#,
r#"    }"#,
r#""#,
r#"    #[test]"#,
r#"    fn it_should_compute_scrypt_for_vec3() {"#,
r#"        let s = Scrypt::new(8, 1_048_576, 1);"#,
r#""#,
r#"        let mut out: [u8; 64] = [0; 64];"#,
r#"        s.derive(b"pleaseletmein", b"SodiumChloride", &mut out)"#,
r#"            .expect("derivation to not fail");"#,
r#"        assert_eq!("#,
r#"            out.to_vec(),"#,
r#"            vec!["#,
r#"                0x21, 0x01, 0xcb, 0x9b, 0x6a, 0x51, 0x1a, 0xae, 0xad, 0xdb, 0xbe, 0x09, 0xcf, 0x70,"#,
r#"                0xf8, 0x81, 0xec, 0x56, 0x8d, 0x57, 0x4a, 0x2f, 0xfd, 0x4d, 0xab, 0xe5, 0xee, 0x98,"#,
r#"                0x20, 0xad, 0xaa, 0x47, 0x8e, 0x56, 0xfd, 0x8f, 0x4b, 0xa5, 0xd0, 0x9f, 0xfa, 0x1c,"#,
r#"                0x6d, 0x92, 0x7c, 0x40, 0xf4, 0xc3, 0x37, 0x30, 0x40, 0x49, 0xe8, 0xa9, 0x52, 0xfb,"#,
r#"                0xcb, 0xf4, 0x5c, 0x6f, 0xa7, 0x7a, 0x41, 0xa4"#,
r#"            ]"#,
r#"        );"#,
r#"    }"#,
r#"}"#]

/-- `src/pkcs7.rs` -/
def pkcs7 : List String := [
r#"//! # PKCS7"#,
r#"//!"#,
r#"//! Implementation of PKCS7 padding."#,
r#"//!"#,
r#""#,
r#"use std::error::Error;"#,
r#"use std::fmt;"#,
r#"use std::fmt::Display;"#,
r#""#,
r#"pub struct Pad {"#,
r#"    block_size: usize,"#,
r#"    storage: Vec<u8>,"#,
r#"}"#,
r#""#,
r#"impl Pad {"#,
r#"    pub fn new(block_size: usize) -> Self {"#,
r#"        Pad {"#,
r#"            block_size,"#,
r#"            storage: Vec::with_capacity(2 * block_size),"#,
r#"        }"#,
r#"    }"#,
r#""#,
r#"    pub fn write(&mut self, buf: &[u8]) -> Option<Vec<u8>> {"#,
r#"        for &elem in buf {"#,
r#"            self.storage.push(elem);"#,
r#"        }"#,
r#""#,
r#"        if self.storage.len() < self.block_size {"#,
r#"            return None;"#,
r#"        }"#,
r#""#,
r#"        let tail_len = self.storage.len() % self.block_size;"#,
r#"        let tail_pos = self.storage.len() - tail_len;"#,
r#""#,
r#"        let mut tail = self.storage.split_off(tail_pos);"#,
r#"        let head = self.storage.clone();"#,
r#"        self.storage.clear();"#,
r#"        self.storage.append(&mut tail);"#,
r#""#,
r#"        Some(head)"#,
r#"    }"#,
r#""#,
r#"    pub fn flush(&mut self) -> Vec<u8> {"#,
r#"        let len = self.block_size - self.storage.len();"#,
r#"        while self.storage.len() < self.block_size {"#,
r#"            self.storage.push(len as u8);"#,
r#"        }"#,
r#""#,
r#"        let result = self.storage.clone();"#,
r#"        self.storage.clear();"#,
r#"        result"#,
r#"    }"#,
r#"}"#,
r#""#,
r#"/// Possible unpad errors"#,
r#"#[derive(Debug, PartialEq)]"#,
r#"pub enum UnpadError {"#,
r#"    /// Returned when the data length is not divisible by the block size."#,
r#"    UnfinishedBlock,"#,
r#""#,
r#"    /// Returned when the padding is invalid in the last block."#,
r#"    InvalidPadding,"#,
r#"}"#,
r#""#,
r#"impl Display for UnpadError {"#,
r#"    fn fmt(&self, f: &mut fmt::Formatter) -> fmt::Result {"#,
r#"        write!(f, "UnpadError: {}", self.description())"#,
r#"    }"#,
r#"}"#,
r#""#,
r#"impl Error for UnpadError {"#,
r#"    fn description(&self) -> &str {"#,
r#"        match self {"#,
r#"            UnpadError::UnfinishedBlock => "data length must be a multiple of block size","#,
r#"            UnpadError::InvalidPadding => "final block contains invalid padding","#,
r#"        }"#,
r#"    }"#,
r#"}"#,
r#""#,
r#"pub struct Unpad {"#,
r#"    block_size: usize,"#,
r#"    storage: Vec<u8>,"#,
r#"}"#,
r#""#,
r#"impl Unpad {"#,
r#"    pub fn new(block_size: usize) -> Self {"#,
r#"        Unpad {"#,
r#"            block_size,"#,
r#"            storage: Vec::with_capacity(2 * block_size),"#,
r#"        }"#,
r#"    }"#,
r#""#,
r#"    pub fn write(&mut self, buf: &[u8]) -> Option<Vec<u8>> {"#,
r#"        for &elem in buf {"#,
r#"            self.storage.push(elem);"#,
r#"        }"#,
r#""#,
r#"        // Note the `<=` here. We don't know where the block is the last, so we"#,
r#"        // can't yet emit the block until we have at least one byte of the next"#,
r#"        // block."#,
r#"        if self.storage.len() <= self.block_size {"#,
r#"            return None;"#,
r#"        }"#,
r#""#,
r#"        let mut tail_len = self.storage.len() % self.block_size;"#,
r#""#,
r#"        // NOTE: this is different from the Pad::write"#,
r#"        if tail_len == 0 {"#,
r#"            tail_len = self.block_size;"#,
r#"        }"#,
r#""#,
r#"        let tail_pos = self.storage.len() - tail_len;"#,
r#""#,
r#"        let mut tail = self.storage.split_off(tail_pos);"#,
r#"        let head = self.storage.clone();"#,
r#"        self.storage.clear();"#,
r#"        self.storage.append(&mut tail);"#,
r#""#,
r#"        Some(head)"#,
r#"    }"#,
r#""#,
r#"    pub fn flush(&mut self) -> Result<Vec<u8>, UnpadError> {"#,
r#"        if self.storage.len() != self.block_size {"#,
r#"            return Err(UnpadError::UnfinishedBlock);"#,
r#"        }"#,
r#""#,
r#"        let len = self.storage[self.storage.len() - 1];"#,
r#"        if len > (self.block_size as u8) {"#,
r#"            return Err(UnpadError::InvalidPadding);"#,
r#"        }"#,
r#"        let pad_off: usize = self.block_size - usize::from(len);"#,
r#""#,
r#"        // XXX(indutny): hopefully this won't be optimized away"#,
r#"        let mut is_same: u8 = 0;"#,
r#"        for b in self.storage[pad_off..].iter() {"#,
r#"            is_same |= len ^ b;"#,
r#"        }"#,
r#""#,
r#"        if is_same != 0 {"#,
r#"            return Err(UnpadError::InvalidPadding);"#,
r#"        }"#,
r#""#,
r#"        let result = self.storage[..pad_off].to_vec();"#,
r#"        self.storage.clear();"#,
r#"        Ok(result)"#,
r#"    }"#,
r#"}"#,
r#""#,
r#"#[cfg(test)]"#,
r#"mod tests {"#,
r#"    use super::*;"#,
r#""#,
r#"    #[test]"#,
r#"    fn it_should_apply_padding_to_incomplete_block() {"#,
r#"        let mut pad = Pad::new(4);"#,
r#""#,
r#"        assert_eq!(pad.write(b"123"), None);"#,
r#"        assert_eq!(pad.flush(), b"123\x01");"#,
r#"    }"#,
r#""#,
r#"    #[test]"#,
r#"    fn it_should_apply_padding_to_second_incomplete_block() {"#,
r#"        let mut pad = Pad::new(4);"#,
r#""#,
r#"        assert_eq!(pad.write(b"123456"), Some(b"1234".to_vec()));"#,
r#"        assert_eq!(pad.flush(), b"56\x02\x02");"#,
r#"    }"#,
r#""#,
r#"    #[test]"#,
r#"    fn it_should_return_padding_block() {"#,
r#"        let mut pad = Pad::new(4);"#,
r#""#,
r#"        assert_eq!(pad.write(b"1234"), Some(b"1234".to_vec()));"#,
r#"        assert_eq!(pad.flush(), b"\x04\x04\x04\x04");"#,
r#"    }"#,
r#""#,
r#"    #[test]"#,
r#"    fn it_should_unpad_single_block() {"#,
r#"        let mut unpad = Unpad::new(4);"#,
r#""#,
r#"        assert_eq!(unpad.write(b"123\x01"), None);"#,
r#"        assert_eq!(unpad.flush().expect("flush to succeed"), b"123".to_vec());"#,
r#"    }"#,
r#""#,
r#"    #[test]"#,
r#"    fn it_should_unpad_two_blocks() {"#,
r#"        let mut unpad = Unpad::new(4);"#,
r#""#,
r#"        assert_eq!(unpad.write(b"1234"), None);"#,
r#"        assert_eq!(unpad.write(b"5\x03\x03\x03"), Some(b"1234".to_vec()));"#,
r#"        assert_eq!(unpad.flush().expect("flush to succeed"), b"5".to_vec());"#,
r#"    }"#,
r#""#,
r#"    #[test]"#,
r#"    fn it_should_unpad_full_block() {"#,
r#"        let mut unpad = Unpad::new(4);"#,
r#""#,
r#"        assert_eq!(unpad.write(b"1234"), None);"#,
r#"        assert_eq!(unpad.write(b"\x04\x04\x04\x04"), Some(b"1234".to_vec()));"#,
r#"        assert_eq!(unpad.flush().expect("flush to succeed"), b"".to_vec());"#,
r#"    }"#,
r#""#,
r#"    #[test]"#,
r#"    fn it_should_error_on_unfinished_data() {"#,
r#"        let mut unpad = Unpad::new(4);"#,
r#""#,
r#"        assert_eq!(unpad.write(b"123"), None);"#,
r#"        assert_eq!("#,
r#"            unpad.flush().expect_err("flush to fail"),"#,
r#"            UnpadError::UnfinishedBlock"#,
r#"        );"#,
r#"    }"#,
r#""#,
r#"    #[test]"#,
r#"    fn it_should_error_on_invalid_padding() {"#,
r#"        let mut unpad = Unpad::new(4);"#,
r#""#,
r#"        assert_eq!(unpad.write(b"12\x03\x02"), None);"#,
r#"        assert_eq!("#,
r#"            unpad.flush().expect_err("flush to fail"),"#,
r#"            UnpadError::InvalidPadding"#,
r#"        );"#,
r#"    }"#,
r#"}"#]

/-- `src/aes.rs` -/
def aes : List String := [
r#"//! # AES"#,
r#"//!"#,
r#"//! Implementation of AES encryption/decryption algorithm according to"#,
r#"//! [FIPS 197][fips]."#,
r#"//!"#,
r#"//! [fips]: https://csrc.nist.gov/csrc/media/publications/fips/197/final/documents/fips-197.pdf"#,
r#"//!"#,
r#""#,
r#"use std::error::Error;"#,
r#"use std::fmt;"#,
r#"use std::fmt::Display;"#,
r#""#,
r#"pub const BLOCK_SIZE: usize = 16;"#,
r#"const NB: usize = 4;"#,
r#""#,
r#"// Note: block[column][row]"#,
r#"type Block = [[u8; 4]; 4];"#,
r#""#,
r#"const SBOX: [u8; 256] = ["#,
r#"    0x63, 0x7c, 0x77, 0x7b, 0xf2, 0x6b, 0x6f, 0xc5, 0x30, 0x01, 0x67, 0x2b, 0xfe, 0xd7, 0xab, 0x76,"#,
r#"    0xca, 0x82, 0xc9, 0x7d, 0xfa, 0x59, 0x47, 0xf0, 0xad, 0xd4, 0xa2, 0xaf, 0x9c, 0xa4, 0x72, 0xc0,"#,
r#"    0xb7, 0xfd, 0x93, 0x26, 0x36, 0x3f, 0xf7, 0xcc, 0x34, 0xa5, 0xe5, 0xf1, 0x71, 0xd8, 0x31, 0x15,"#,
r#"    0x04, 0xc7, 0x23, 0xc3, 0x18, 0x96, 0x05, 0x9a, 0x07, 0x12, 0x80, 0xe2, 0xeb, 0x27, 0xb2, 0x75,"#,
r#"    0x09, 0x83, 0x2c, 0x1a, 0x1b, 0x6e, 0x5a, 0xa0, 0x52, 0x3b, 0xd6, 0xb3, 0x29, 0xe3, 0x2f, 0x84,"#,
r#"    0x53, 0xd1, 0x00, 0xed, 0x20, 0xfc, 0xb1, 0x5b, 0x6a, 0xcb, 0xbe, 0x39, 0x4a, 0x4c, 0x58, 0xcf,"#,
r#"    0xd0, 0xef, 0xaa, 0xfb, 0x43, 0x4d, 0x33, 0x85, 0x45, 0xf9, 0x02, 0x7f, 0x50, 0x3c, 0x9f, 0xa8,"#,
r#"    0x51, 0xa3, 0x40, 0x8f, 0x92, 0x9d, 0x38, 0xf5, 0xbc, 0xb6, 0xda, 0x21, 0x10, 0xff, 0xf3, 0xd2,"#,
r#"    0xcd, 0x0c, 0x13, 0xec, 0x5f, 0x97, 0x44, 0x17, 0xc4, 0xa7, 0x7e, 0x3d, 0x64, 0x5d, 0x19, 0x73,"#,
r#"    0x60, 0x81, 0x4f, 0xdc, 0x22, 0x2a, 0x90, 0x88, 0x46, 0xee, 0xb8, 0x14, 0xde, 0x5e, 0x0b, 0xdb,"#,
r#"    0xe0, 0x32, 0x3a, 0x0a, 0x49, 0x06, 0x24, 0x5c, 0xc2, 0xd3, 0xac, 0x62, 0x91, 0x95, 0xe4, 0x79,"#,
r#"    0xe7, 0xc8, 0x37, 0x6d, 0x8d, 0xd5, 0x4e, 0xa9, 0x6c, 0x56, 0xf4, 0xea, 0x65, 0x7a, 0xae, 0x08,"#,
r#"    0xba, 0x78, 0x25, 0x2e, 0x1c, 0xa6, 0xb4, 0xc6, 0xe8, 0xdd, 0x74, 0x1f, 0x4b, 0xbd, 0x8b, 0x8a,"#,
r#"    0x70, 0x3e, 0xb5, 0x66, 0x48, 0x03, 0xf6, 0x0e, 0x61, 0x35, 0x57, 0xb9, 0x86, 0xc1, 0x1d, 0x9e,"#,
r#"    0xe1, 0xf8, 0x98, 0x11, 0x69, 0xd9, 0x8e, 0x94, 0x9b, 0x1e, 0x87, 0xe9, 0xce, 0x55, 0x28, 0xdf,"#,
r#"    0x8c, 0xa1, 0x89, 0x0d, 0xbf, 0xe6, 0x42, 0x68, 0x41, 0x99, 0x2d, 0x0f, 0xb0, 0x54, 0xbb, 0x16,"#,
r#"];"#,
r#""#,
r#"const INV_SBOX: [u8; 256] = ["#,
r#"    0x52, 0x09, 0x6a, 0xd5, 0x30, 0x36, 0xa5, 0x38, 0xbf, 0x40, 0xa3, 0x9e, 0x81, 0xf3, 0xd7, 0xfb,"#,
r#"    0x7c, 0xe3, 0x39, 0x82, 0x9b, 0x2f, 0xff, 0x87, 0x34, 0x8e, 0x43, 0x44, 0xc4, 0xde, 0xe9, 0xcb,"#,
r#"    0x54, 0x7b, 0x94, 0x32, 0xa6, 0xc2, 0x23, 0x3d, 0xee, 0x4c, 0x95, 0x0b, 0x42, 0xfa, 0xc3, 0x4e,"#,
r#"    0x08, 0x2e, 0xa1, 0x66, 0x28, 0xd9, 0x24, 0xb2, 0x76, 0x5b, 0xa2, 0x49, 0x6d, 0x8b, 0xd1, 0x25,"#,
r#"    0x72, 0xf8, 0xf6, 0x64, 0x86, 0x68, 0x98, 0x16, 0xd4, 0xa4, 0x5c, 0xcc, 0x5d, 0x65, 0xb6, 0x92,"#,
r#"    0x6c, 0x70, 0x48, 0x50, 0xfd, 0xed, 0xb9, 0xda, 0x5e, 0x15, 0x46, 0x57, 0xa7, 0x8d, 0x9d, 0x84,"#,
r#"    0x90, 0xd8, 0xab, 0x00, 0x8c, 0xbc, 0xd3, 0x0a, 0xf7, 0xe4, 0x58, 0x05, 0xb8, 0xb3, 0x45, 0x06,"#,
r#"    0xd0, 0x2c, 0x1e, 0x8f, 0xca, 0x3f, 0x0f, 0x02, 0xc1, 0xaf, 0xbd, 0x03, 0x01, 0x13, 0x8a, 0x6b,"#,
r#"    0x3a, 0x91, 0x11, 0x41, 0x4f, 0x67, 0xdc, 0xea, 0x97, 0xf2, 0xcf, 0xce, 0xf0, 0xb4, 0xe6, 0x73,"#,
r#"    0x96, 0xac, 0x74, 0x22, 0xe7, 0xad, 0x35, 0x85, 0xe2, 0xf9, 0x37, 0xe8, 0x1c, 0x75, 0xdf, 0x6e,"#,
r#"    0x47, 0xf1, 0x1a, 0x71, 0x1d, 0x29, 0xc5, 0x89, 0x6f, 0xb7, 0x62, 0x0e, 0xaa, 0x18, 0xbe, 0x1b,"#,
r#"    0xfc, 0x56, 0x3e, 0x4b, 0xc6, 0xd2, 0x79, 0x20, 0x9a, 0xdb, 0xc0, 0xfe, 0x78, 0xcd, 0x5a, 0xf4,"#,
r#"    0x1f, 0xdd, 0xa8, 0x33, 0x88, 0x07, 0xc7, 0x31, 0xb1, 0x12, 0x10, 0x59, 0x27, 0x80, 0xec, 0x5f,"#,
r#"    0x60, 0x51, 0x7f, 0xa9, 0x19, 0xb5, 0x4a, 0x0d, 0x2d, 0xe5, 0x7a, 0x9f, 0x93, 0xc9, 0x9c, 0xef,"#,
r#"    0xa0, 0xe0, 0x3b, 0x4d, 0xae, 0x2a, 0xf5, 0xb0, 0xc8, 0xeb, 0xbb, 0x3c, 0x83, 0x53, 0x99, 0x61,"#,
r#"    0x17, 0x2b, 0x04, 0x7e, 0xba, 0x77, 0xd6, 0x26, 0xe1, 0x69, 0x14, 0x63, 0x55, 0x21, 0x0c, 0x7d,"#,
r#"];"#,
r#""#,
r#"// Rcon[i], contains the values given by [ x^(i - 1), 0, 0, 0 ], with x^(i - 1)"#,
r#"// being powers of x (x denoted as {02}) in the field GF(2^8). (note that i"#,
r#"// starts at 1, not 0)"#,
r#"const RCON: [u32; 10] = ["#,
r#"    0x0100_0000,"#,
r#"    0x0200_0000,"#,
r#"    0x0400_0000,"#,
r#"    0x0800_0000,"#,
r#"    0x1000_0000,"#,
r#"    0x2000_0000,"#,
r#"    0x4000_0000,"#,
r#"    0x8000_0000,"#,
r#"    0x1b00_0000,"#,
r#"    0x3600_0000,"#,
r#"];"#,
r#""#,
r#"// Double the number in the binary field."#,
r#"fn double(b: u8) -> u8 {"#,
r#"    if (b & 0x80) == 0 {"#,
r#"        b << 1"#,
r#"    } else {"#,
r#"        (b << 1) ^ 0x1b"#,
r#"    }"#,
r#"}"#,
r#""#,
r#"// Multiply the number by another number in the binary field."#,
r#"fn mul(b: u8, mut by: usize) -> u8 {"#,
r#"    let mut res: u8 = 0;"#,
r#"    let mut power = b;"#,
r#"    while by != 0 {"#,
r#"        if (by & 1) != 0 {"#,
r#"            res ^= power;"#,
r#"        }"#,
r#"        power = double(power);"#,
r#"        by >>= 1;"#,
r#"    }"#,
r#"    res"#,
r#"}"#,
r#""#,
r#"fn sub_word(b: u32) -> u32 {"#,
r#"    let b0 = (b >> 24) as usize;"#,
r#"    let b1 = ((b >> 16) & 0xff) as usize;"#,
r#"    let b2 = ((b >> 8) & 0xff) as usize;"#,
r#"    let b3 = (b & 0xff) as usize;"#,
r#""#,
r#"    (u32::from(SBOX[b0]) << 24)"#,
r#"        | (u32::from(SBOX[b1]) << 16)"#,
r#"        | (u32::from(SBOX[b2]) << 8)"#,
r#"        | u32::from(SBOX[b3])"#,
r#"}"#,
r#""#,
r#"fn rot_word(b: u32) -> u32 {"#,
r#"    (b << 8) | (b >> 24)"#,
r#"}"#,
r#""#,
r#"fn expand_key(key: &[u8], round_count: usize) -> Vec<u32> {"#,
r#"    // byte key[4*Nk]"#,
r#"    let nk = key.len() / 4;"#,
r#""#,
r#"    // word w[Nb*(Nr+1)]"#,
r#"    let mut w = Vec::with_capacity(NB * (round_count + 1));"#,
r#""#,
r#"    //  word  temp"#,
r#"    //  i = 0"#,
r#"    //  while (i < Nk)"#,
r#"    //      w[i] = word(key[4*i], key[4*i+1], key[4*i+2], key[4*i+3])"#,
r#"    //      i = i+1"#,
r#"    //  end while"#,
r#""#,
r#"    let mut i: usize = 0;"#,
r#"    while i < nk {"#,
r#"        w.push("#,
r#"            (u32::from(key[4 * i]) << 24)"#,
r#"                | (u32::from(key[4 * i + 1]) << 16)"#,
r#"                | (u32::from(key[4 * i + 2]) << 8)"#,
r#"                | u32::from(key[4 * i + 3]),"#,
r#"        );"#,
r#"        i += 1;"#,
r#"    }"#,
r#""#,
r#"    //  i = Nk"#,
r#"    //  while (i < Nb * (Nr+1)]"#,
r#"    //      temp = w[i-1]"#,
r#"    //      if (i mod Nk = 0)"#,
r#"    //          temp = SubWord(RotWord(temp)) xor Rcon[i/Nk]"#,
r#"    //      else if (Nk > 6 and i mod Nk = 4)"#,
r#"    //          temp = SubWord(temp)"#,
r#"    //      end if"#,
r#"    //      w[i] = w[i-Nk] xor temp"#,
r#"    //      i = i + 1"#,
r#"    //  end while"#,
r#"    while i < NB * (round_count + 1) {"#,
r#"        let mut temp = w[i - 1];"#,
r#"        if i % nk == 0 {"#,
r#"            temp = sub_word(rot_word(temp)) ^ RCON[i / nk - 1];"#,
r#"        } else if nk > 6 && i % nk == 4 {"#,
r#"            temp = sub_word(temp);"#,
r#"        }"#,
r#"        w.push(w[i - nk] ^ temp);"#,
r#"        i += 1;"#,
r#"    }"#,
r#""#,
r#"    w"#,
r#"}"#,
r#""#,
r#"trait AESSide {"#,
r#"    fn lookup_sbox(b: u8) -> u8;"#,
r#"    fn mix_column(col: [u8; 4]) -> [u8; 4];"#,
r#"    fn shift_rows(s: &Block) -> Block;"#,
r#""#,
r#"    // Common methods"#,
r#""#,
r#"    fn add_round_key(s: &mut Block, round_key: &[u32]) {"#,
r#"        for (col, &key) in s.iter_mut().zip(round_key) {"#,
r#"            col[0] ^= (key >> 24) as u8;"#,
r#"            col[1] ^= ((key >> 16) & 0xff) as u8;"#,
r#"            col[2] ^= ((key >> 8) & 0xff) as u8;"#,
r#"            col[3] ^= (key & 0xff) as u8;"#,
r#"        }"#,
r#"    }"#,
r#""#,
r#"    fn sub_bytes(s: &mut Block) {"#,
r#"        for col in s.iter_mut() {"#,
r#"            for cell in col.iter_mut() {"#,
r#"                *cell = Self::lookup_sbox(*cell);"#,
r#"            }"#,
r#"        }"#,
r#"    }"#,
r#""#,
r#"    fn mix_columns(s: &mut Block) {"#,
r#"        for column in s.iter_mut() {"#,
r#"            *column = Self::mix_column(*column);"#,
r#"        }"#,
r#"    }"#,
r#"}"#,
r#""#,
r#"struct AESEncrypt {}"#,
r#"struct AESDecrypt {}"#,
r#""#,
r#"impl AESSide for AESEncrypt {"#,
r#"    fn lookup_sbox(b: u8) -> u8 {"#,
r#"        SBOX[usize::from(b)]"#,
r#"    }"#,
r#""#,
r#"    fn mix_column(col: [u8; 4]) -> [u8; 4] {"#,
r#"        ["#,
r#"            mul(col[0], 2) ^ mul(col[1], 3) ^ col[2] ^ col[3],"#,
r#"            mul(col[1], 2) ^ mul(col[2], 3) ^ col[3] ^ col[0],"#,
r#"            mul(col[2], 2) ^ mul(col[3], 3) ^ col[0] ^ col[1],"#,
r#"            mul(col[3], 2) ^ mul(col[0], 3) ^ col[1] ^ col[2],"#,
r#"        ]"#,
r#"    }"#,
r#""#,
r#"    fn shift_rows(s: &Block) -> Block {"#,
r#"        ["#,
r#"            [s[0][0], s[1][1], s[2][2], s[3][3]],"#,
r#"            [s[1][0], s[2][1], s[3][2], s[0][3]],"#,
r#"            [s[2][0], s[3][1], s[0][2], s[1][3]],"#,
r#"            [s[3][0], s[0][1], s[1][2], s[2][3]],"#,
r#"        ]"#,
r#"    }"#,
r#"}"#,
r#""#,
r#"impl AESSide for AESDecrypt {"#,
r#"    fn lookup_sbox(b: u8) -> u8 {"#,
r#"        INV_SBOX[usize::from(b)]"#,
r#"    }"#,
r#""#,
r#"    fn mix_column(col: [u8; 4]) -> [u8; 4] {"#,
r#"        ["#,
r#"            mul(col[0], 0x0e) ^ mul(col[1], 0x0b) ^ mul(col[2], 0x0d) ^ mul(col[3], 0x09),"#,
r#"            mul(col[1], 0x0e) ^ mul(col[2], 0x0b) ^ mul(col[3], 0x0d) ^ mul(col[0], 0x09),"#,
r#"            mul(col[2], 0x0e) ^ mul(col[3], 0x0b) ^ mul(col[0], 0x0d) ^ mul(col[1], 0x09),"#,
r#"            mul(col[3], 0x0e) ^ mul(col[0], 0x0b) ^ mul(col[1], 0x0d) ^ mul(col[2], 0x09),"#,
r#"        ]"#,
r#"    }"#,
r#""#,
r#"    fn shift_rows(s: &Block) -> Block {"#,
r#"        ["#,
r#"            [s[0][0], s[3][1], s[2][2], s[1][3]],"#,
r#"            [s[1][0], s[0][1], s[3][2], s[2][3]],"#,
r#"            [s[2][0], s[1][1], s[0][2], s[3][3]],"#,
r#"            [s[3][0], s[2][1], s[1][2], s[0][3]],"#,
r#"        ]"#,
r#"    }"#,
r#"}"#,
r#""#,
r#"fn to_block(b: &[u8; BLOCK_SIZE]) -> Block {"#,
r#"    ["#,
r#"        [b[0], b[1], b[2], b[3]],"#,
r#"        [b[4], b[5], b[6], b[7]],"#,
r#"        [b[8], b[9], b[10], b[11]],"#,
r#"        [b[12], b[13], b[14], b[15]],"#,
r#"    ]"#,
r#"}"#,
r#""#,
r#"fn from_block(s: &Block) -> [u8; BLOCK_SIZE] {"#,
r#"    ["#,
r#"        s[0][0], s[0][1], s[0][2], s[0][3], s[1][0], s[1][1], s[1][2], s[1][3], s[2][0], s[2][1],"#,
r#"        s[2][2], s[2][3], s[3][0], s[3][1], s[3][2], s[3][3],"#,
r#"    ]"#,
r#"}"#,
r#""#,
r#"/// Possible initialization errors"#,
r#"#[derive(Debug, PartialEq)]"#,
r#"pub enum AESError {"#,
r#"    /// Returned when key size is neither of: 128, 192, or 256 bits."#,
r#"    InvalidKeySize,"#,
r#""#,
r#"    /// Returned when attempting encryption/decryption on non-initialized AES"#,
r#"    /// instance"#,
r#"    NotInitialized,"#,
r#"}"#,
r#""#,
r#"impl Display for AESError {"#,
r#"    fn fmt(&self, f: &mut fmt::Formatter) -> fmt::Result {"#,
r#"        write!(f, "AESError: {}", self.description())"#,
r#"    }"#,
r#"}"#,
r#""#,
r#"impl Error for AESError {"#,
r#"    fn description(&self) -> &str {"#,
r#"        match self {"#,
r#"            AESError::InvalidKeySize => "key size must be either of: 128, 192, or 256 bits","#,
r#"            AESError::NotInitialized => "AES instance must be initialized prior to use","#,
r#"        }"#,
r#"    }"#,
r#"}"#,
r#""#,
r#"///"#,
r#"/// Main AES structure."#,
r#"///"#,
r#"/// Usage:"#,
r#"/// ```rust"#,
r#"/// extern crate dumb_crypto;"#,
r#"///"#,
r#"/// use dumb_crypto::aes::{AES, BLOCK_SIZE};"#,
r#"///"#,
r#"/// let mut aes = AES::new();"#,
r#"/// let key: [u8; 16] = ["#,
r#"///     0x2b, 0x7e, 0x15, 0x16, 0x28, 0xae, 0xd2, 0xa6,"#,
r#"///     0xab, 0xf7, 0x15, 0x88, 0x09, 0xcf, 0x4f, 0x3c,"#,
r#"/// ];"#,
r#"/// aes.init(&key).unwrap();"#,
r#"///"#,
r#"/// let cleartext: [u8; BLOCK_SIZE] = ["#,
r#"///     0x32, 0x43, 0xf6, 0xa8, 0x88, 0x5a, 0x30, 0x8d,"#,
r#"///     0x31, 0x31, 0x98, 0xa2, 0xe0, 0x37, 0x07, 0x34,"#,
r#"/// ];"#,
r#"///"#,
r#"/// let ciphertext = aes.encrypt(&cleartext).unwrap();"#,
r#"///"#,
r#"/// assert_eq!(aes.decrypt(&ciphertext).unwrap(), cleartext);"#,
r#"/// ```"#,
r#"///"#,
r#"pub struct AES {"#,
r#"    round_count: usize,"#,
r#"    round_keys: Option<Vec<u32>>,"#,
r#"}"#,
r#""#,
r#"impl AES {"#,
r#"    /// Create new uninitialized instance of AES."#,
r#"    pub fn new() -> Self {"#,
r#"        AES {"#,
r#"            round_count: 0,"#,
r#"            round_keys: None,"#,
r#"        }"#,
r#"    }"#,
r#""#,
r#"    /// Initialize an instance with a encryption/decryption key."#,
r#"    pub fn init(&mut self, key: &[u8]) -> Result<(), AESError> {"#,
r#"        self.round_count = match key.len() {"#,
r#"            // 128 bits"#,
r#"            16 => 10,"#,
r#""#,
r#"            // 192 bits"#,
r#"            24 => 12,"#,
r#""#,
r#"            // 256 bits"#,
r#"            32 => 14,"#,
r#""#,
r#"            // Invalid key size"#,
r#"            _ => {"#,
r#"                return Err(AESError::InvalidKeySize);"#,
r#"            }"#,
r#"        };"#,
r#"        self.round_keys = Some(expand_key(key, self.round_count));"#,
r#""#,
r#"        Ok(())"#,
r#"    }"#,
r#""#,
r#"    /// Encrypt block of data."#,
r#"    pub fn encrypt(&self, b: &[u8; BLOCK_SIZE]) -> Result<[u8; BLOCK_SIZE], AESError> {"#,
r#"        let nr = self.round_count;"#,
r#""#,
r#"        let mut state = to_block(b);"#,
r#"        let round_keys = match &self.round_keys {"#,
r#"            Some(keys) => keys,"#,
r#"            None => {"#,
r#"                return Err(AESError::NotInitialized);"#,
r#"            }"#,
r#"        };"#,
r#""#,
r#"        AESEncrypt::add_round_key(&mut state, &round_keys[0..NB]);"#,
r#""#,
r#"        for round in 1..nr {"#,
r#"            AESEncrypt::sub_bytes(&mut state);"#,
r#"            state = AESEncrypt::shift_rows(&state);"#,
r#"            AESEncrypt::mix_columns(&mut state);"#,
r#"            AESEncrypt::add_round_key(&mut state, &round_keys[(round * NB)..((round + 1) * NB)]);"#,
r#"        }"#,
r#""#,
r#"        AESEncrypt::sub_bytes(&mut state);"#,
r#"        state = AESEncrypt::shift_rows(&state);"#,
r#"        AESEncrypt::add_round_key(&mut state, &round_keys[(nr * NB)..]);"#,
r#""#,
r#"        Ok(from_block(&state))"#,
r#"    }"#,
r#""#,
r#"    /// Decrypt block of data."#,
r#"    pub fn decrypt(&self, b: &[u8; BLOCK_SIZE]) -> Result<[u8; BLOCK_SIZE], AESError> {"#,
r#"        let nr = self.round_count;"#,
r#""#,
r#"        let mut state = to_block(b);"#,
r#"        let round_keys = match &self.round_keys {"#,
r#"            Some(keys) => keys,"#,
r#"            None => {"#,
r#"                return Err(AESError::NotInitialized);"#,
r#"            }"#,
r#"        };"#,
r#""#,
r#"        AESDecrypt::add_round_key(&mut state, &round_keys[(nr * NB)..]);"#,
r#""#,
r#"        for round in (1..nr).rev() {"#,
r#"            state = AESDecrypt::shift_rows(&state);"#,
r#"            AESDecrypt::sub_bytes(&mut state);"#,
r#"            AESDecrypt::add_round_key(&mut state, &round_keys[(round * NB)..((round + 1) * NB)]);"#,
r#"            AESDecrypt::mix_columns(&mut state);"#,
r#"        }"#,
r#""#,
r#"        state = AESDecrypt::shift_rows(&state);"#,
r#"        AESDecrypt::sub_bytes(&mut state);"#,
r#"        AESDecrypt::add_round_key(&mut state, &round_keys[0..NB]);"#,
r#""#,
r#"        Ok(from_block(&state))"#,
r#"    }"#,
r#"}"#,
r#""#,
r#"impl Default for AES {"#,
r#"    fn default() -> Self {"#,
r#"        Self::new()"#,
r#"    }"#,
r#"}"#,
r#""#,
r#"#[cfg(test)]"#,
r#"mod tests {"#,
r#"    use super::*;"#,
r#"    use crate::common::hex_to_vec;"#,
r#""#,
r#"    const TEST_BLOCK: Block = ["#,
r#"        [0x37, 0xd7, 0xa0, 0x2d],"#,
r#"        [0x8a, 0x65, 0xc1, 0x96],"#,
r#"        [0xda, 0xee, 0x01, 0x99],"#,
r#"        [0xb9, 0x9e, 0x55, 0x65],"#,
r#"    ];"#,
r#""#,
r#"    #[test]"#,
r#"    fn it_should_multiply_in_field() {"#,
r#"        assert_eq!(mul(1, 2), 2);"#,
r#"        assert_eq!(mul(1, 3), 3);"#,
r#""#,
r#"        assert_eq!(mul(0x57, 0x02), 0xae);"#,
r#"        assert_eq!(mul(0x57, 0x04), 0x47);"#,
r#"        assert_eq!(mul(0x57, 0x08), 0x8e);"#,
r#"        assert_eq!(mul(0x57, 0x10), 0x07);"#,
r#"        assert_eq!(mul(0x57, 0x13), 0xfe);"#,
r#"    }"#,
r#""#,
r#"    #[test]"#,
r#"    fn it_should_inverse_sub_bytes() {"#,
r#"        let mut s: Block = TEST_BLOCK;"#,
r#"        AESEncrypt::sub_bytes(&mut s);"#,
r#"        AESDecrypt::sub_bytes(&mut s);"#,
r#"        assert_eq!(s, TEST_BLOCK);"#,
r#"    }"#,
r#""#,
r#"    #[test]"#,
r#"    fn it_should_inverse_mix_columns() {"#,
r#"        let mut s: Block = TEST_BLOCK;"#,
r#"        AESEncrypt::mix_columns(&mut s);"#,
r#"        AESDecrypt::mix_columns(&mut s);"#,
r#"        assert_eq!(s, TEST_BLOCK);"#,
r#"    }"#,
r#""#,
r#"    #[test]"#,
r#"    fn it_should_inverse_shift_rows() {"#,
r#"        let t = AESEncrypt::shift_rows(&TEST_BLOCK);"#,
r#"        assert_eq!(AESDecrypt::shift_rows(&t), TEST_BLOCK);"#,
r#"    }"#,
r#""#,
r#"    #[test]"#,
r#"    fn it_should_expand_128bit_key() {"#,
r#"        assert_eq!("#,
r#"            expand_key("#,
r#"                &["#,
r#"                    0x2b, 0x7e, 0x15, 0x16, 0x28, 0xae, 0xd2, 0xa6, 0xab, 0xf7, 0x15, 0x88, 0x09,"#,
r#"                    0xcf, 0x4f, 0x3c"#,
r#"                ],"#,
r#"                10"#,
r#"            ),"#,
r#"            vec!["#,
r#"                0x2b7e_1516,"#,
r#"                0x28ae_d2a6,"#,
r#"                0xabf7_1588,"#,
r#"                0x09cf_4f3c,"#,
r#"                0xa0fa_fe17,"#,
r#"                0x8854_2cb1,"#,
r#"                0x23a3_3939,"#,
r#"                0x2a6c_7605,"#,
r#"                0xf2c2_95f2,"#,
r#"                0x7a96_b943,"#,
r#"                0x5935_807a,"#,
r#"                0x7359_f67f,"#,
r#"                0x3d80_477d,"#,
r#"                0x4716_fe3e,"#,
r#"                0x1e23_7e44,"#,
r#"                0x6d7a_883b,"#,
r#"                0xef44_a541,"#,
r#"                0xa852_5b7f,"#,
r#"                0xb671_253b,"#,
r#"                0xdb0b_ad00,"#,
r#"                0xd4d1_c6f8,"#,
r#"                0x7c83_9d87,"#,
r#"                0xcaf2_b8bc,"#,
r#"                0x11f9_15bc,"#,
r#"                0x6d88_a37a,"#,
r#"                0x110b_3efd,"#,
r#"                0xdbf9_8641,"#,
r#"                0xca00_93fd,"#,
r#"                0x4e54_f70e,"#,
r#"                0x5f5f_c9f3,"#,
r#"                0x84a6_4fb2,"#,
r#"                0x4ea6_dc4f,"#,
r#"                0xead2_7321,"#,
r#"                0xb58d_bad2,"#,
r#"                0x312b_f560,"#,
r#"                0x7f8d_292f,"#,
r#"                0xac77_66f3,"#,
r#"                0x19fa_dc21,"#,
r#"                0x28d1_2941,"#,
r#"                0x575c_006e,"#,
r#"                0xd014_f9a8,"#,
r#"                0xc9ee_2589,"#,
r#"                0xe13f_0cc8,"#,
r#"                0xb663_0ca6,"#,
r#"            ],"#,
r#"        );"#,
r#"    }"#,
r#""#,
r#"    #[test]"#,
r#"    fn it_should_expand_192bit_key() {"#,
r#"        assert_eq!("#,
r#"            expand_key("#,
r#"                &["#,
r#"                    0x8e, 0x73, 0xb0, 0xf7, 0xda, 0x0e, 0x64, 0x52, 0xc8, 0x10, 0xf3, 0x2b, 0x80,"#,
r#"                    0x90, 0x79, 0xe5, 0x62, 0xf8, 0xea, 0xd2, 0x52, 0x2c, 0x6b, 0x7b,"#,
r#"                ],"#,
r#"                12"#,
r#"            ),"#,
r#"            vec!["#,
r#"                0x8e73_b0f7,"#,
r#"                0xda0e_6452,"#,
r#"                0xc810_f32b,"#,
r#"                0x8090_79e5,"#,
r#"                0x62f8_ead2,"#,
r#"                0x522c_6b7b,"#,
r#"                0xfe0c_91f7,"#,
r#"                0x2402_f5a5,"#,
r#"                0xec12_068e,"#,
r#"                0x6c82_7f6b,"#,
r#"                0x0e7a_95b9,"#,
r#"                0x5c56_fec2,"#,
r#"                0x4db7_b4bd,"#,
r#"                0x69b5_4118,"#,
r#"                0x85a7_4796,"#,
r#"                0xe925_38fd,"#,
r#"                0xe75f_ad44,"#,
r#"                0xbb09_5386,"#,
r#"                0x485a_f057,"#,
r#"                0x21ef_b14f,"#,
r#"                0xa448_f6d9,"#,
r#"                0x4d6d_ce24,"#,
r#"                0xaa32_6360,"#,
r#"                0x113b_30e6,"#,
r#"                0xa25e_7ed5,"#,
r#"                0x83b1_cf9a,"#,
r#"                0x27f9_3943,"#,
r#"                0x6a94_f767,"#,
r#"                0xc0a6_9407,"#,
r#"                0xd19d_a4e1,"#,
r#"                0xec17_86eb,"#,
r#"                0x6fa6_4971,"#,
r#"                0x485f_7032,"#,
r#"                0x22cb_8755,"#,
r#"                0xe26d_1352,"#,
r#"                0x33f0_b7b3,"#,
r#"                0x40be_eb28,"#,
r#"                0x2f18_a259,"#,
r#"                0x6747_d26b,"#,
r#"                0x458c_553e,"#,
r#"                0xa7e1_466c,"#,
r#"                0x9411_f1df,"#,
r#"                0x821f_750a,"#,
r#"                0xad07_d753,"#,
r#"                0xca40_0538,"#,
r#"                0x8fcc_5006,"#,
r#"                0x282d_166a,"#,
r#"                0xbc3c_e7b5,"#,
r#"                0xe98b_a06f,"#,
r#"                0x448c_773c,"#,
r#"                0x8ecc_7204,"#,
r#"                0x0100_2202,"#,
r#"            ],"#,
r#"        );"#,
r#"    }"#,
r#""#,
r#"    #[test]"#,
r#"    fn it_should_expand_256bit_key() {"#,
r#"        assert_eq!("#,
r#"            expand_key("#,
r#"                &["#,
r#"                    0x60, 0x3d, 0xeb, 0x10, 0x15, 0xca, 0x71, 0xbe, 0x2b, 0x73, 0xae, 0xf0, 0x85,"#,
r#"                    0x7d, 0x77, 0x81, 0x1f, 0x35, 0x2c, 0x07, 0x3b, 0x61, 0x08, 0xd7, 0x2d, 0x98,"#,
r#"                    0x10, 0xa3, 0x09, 0x14, 0xdf, 0xf4,"#,
r#"                ],"#,
r#"                14"#,
r#"            ),"#,
r#"            vec!["#,
r#"                0x603d_eb10,"#,
r#"                0x15ca_71be,"#,
r#"                0x2b73_aef0,"#,
r#"                0x857d_7781,"#,
r#"                0x1f35_2c07,"#,
r#"                0x3b61_08d7,"#,
r#"                0x2d98_10a3,"#,
r#"                0x0914_dff4,"#,
r#"                0x9ba3_5411,"#,
r#"                0x8e69_25af,"#,
r#"                0xa51a_8b5f,"#,
r#"                0x2067_fcde,"#,
r#"                0xa8b0_9c1a,"#,
r#"                0x93d1_94cd,"#,
r#"                0xbe49_846e,"#,
r#"                0xb75d_5b9a,"#,
r#"                0xd59a_ecb8,"#,
r#"                0x5bf3_c917,"#,
r#"                0xfee9_4248,"#,
r#"                0xde8e_be96,"#,
r#"                0xb5a9_328a,"#,
r#"                0x2678_a647,"#,
r#"                0x9831_2229,"#,
r#"                0x2f6c_79b3,"#,
r#"                0x812c_81ad,"#,
r#"                0xdadf_48ba,"#,
r#"                0x2436_0af2,"#,
r#"                0xfab8_b464,"#,
r#"                0x98c5_bfc9,"#,
r#"                0xbebd_198e,"#,
r#"                0x268c_3ba7,"#,
r#"                0x09e0_4214,"#,
r#"                0x6800_7bac,"#,
r#"                0xb2df_3316,"#,
r#"                0x96e9_39e4,"#,
r#"                0x6c51_8d80,"#,
r#"                0xc814_e204,"#,
r#"                0x76a9_fb8a,"#,
r#"                0x5025_c02d,"#,
r#"                0x59c5_8239,"#,
r#"                0xde13_6967,"#,
r#"                0x6ccc_5a71,"#,
r#"                0xfa25_6395,"#,
r#"                0x9674_ee15,"#,
r#"                0x5886_ca5d,"#,
r#"                0x2e2f_31d7,"#,
r#"                0x7e0a_f1fa,"#,
r#"                0x27cf_73c3,"#,
r#"                0x749c_47ab,"#,
r#"                0x1850_1dda,"#,
r#"                0xe275_7e4f,"#,
r#"                0x7401_905a,"#,
r#"                0xcafa_aae3,"#,
r#"                0xe4d5_9b34,"#,
r#"                0x9adf_6ace,"#,
r#"                0xbd10_190d,"#,
r#"                0xfe48_90d1,"#,
r#"                0xe618_8d0b,"#,
r#"                0x046d_f344,"#,
r#"                0x706c_631e,"#,
r#"            ],"#,
r#"        );"#,
r#"    }"#,
r#""#,
r#"    #[test]"#,
r#"    fn it_should_encrypt_first_test_from_the_spec() {"#,
r#"        let mut aes = AES::new();"#,
r#"        let key: [u8; 16] = ["#,
r#"            0x2b, 0x7e, 0x15, 0x16, 0x28, 0xae, 0xd2, 0xa6, 0xab, 0xf7, 0x15, 0x88, 0x09, 0xcf,"#,
r#"            0x4f, 0x3c,"#,
r#"        ];"#,
r#"        aes.init(&key).expect("init to not fail");"#,
r#""#,
r#"        let cleartext: [u8; BLOCK_SIZE] = ["#,
r#"            0x32, 0x43, 0xf6, 0xa8, 0x88, 0x5a, 0x30, 0x8d, 0x31, 0x31, 0x98, 0xa2, 0xe0, 0x37,"#,
r#"            0x07, 0x34,"#,
r#"        ];"#,
r#""#,
r#"        let ciphertext = aes.encrypt(&cleartext).expect("encrypt to not fail");"#,
r#""#,
r#"        assert_eq!("#,
r#"            ciphertext,"#,
r#"            ["#,
r#"                0x39, 0x25, 0x84, 0x1d, 0x02, 0xdc, 0x09, 0xfb, 0xdc, 0x11, 0x85, 0x97, 0x19, 0x6a,"#,
r#"                0x0b, 0x32,"#,
r#"            ]"#,
r#"        );"#,
r#"    }"#,
r#""#,
r#"    fn hex_to_block(hex: &str) -> [u8; 16] {"#,
r#"        let vec = hex_to_vec(hex);"#,
r#"        let mut b = [0; 16];"#,
r#""#,
r#"        for (i, elem) in vec.into_iter().enumerate() {"#,
r#"            b[i] = elem;"#,
r#"        }"#,
r#""#,
r#"        b"#,
r#"    }"#,
r#""#,
r#"    fn check_cipher_vector(key: &str, input: &str, output: &str) {"#,
r#"        let mut aes = AES::new();"#,
r#"        aes.init(&hex_to_vec(key)).expect("init to not fail");"#,
r#""#,
r#"        assert_eq!("#,
r#"            aes.encrypt(&hex_to_block(input))"#,
r#"                .expect("encrypt to not fail"),"#,
r#"            hex_to_block(output)"#,
r#"        );"#,
r#"        assert_eq!("#,
r#"            aes.decrypt(&hex_to_block(output))"#,
r#"                .expect("decrypt to not fail"),"#,
r#"            hex_to_block(input)"#,
r#"        );"#,
r#"    }"#,
r#""#,
r#"    #[test]"#,
r#"    fn it_should_encrypt_test_vector_0() {"#,
r#"        check_cipher_vector("#,
r#"            "000102030405060708090a0b0c0d0e0f","#,
r#"            "00112233445566778899aabbccddeeff","#,
r#"            "69c4e0d86a7b0430d8cdb78070b4c55a","#,
r#"        );"#,
r#"    }"#,
r#""#,
r#"    #[test]"#,
r#"    fn it_should_encrypt_test_vector_1() {"#,
r#"        check_cipher_vector("#,
r#"            "000102030405060708090a0b0c0d0e0f1011121314151617","#,
r#"            "00112233445566778899aabbccddeeff","#,
r#"            "dda97ca4864cdfe06eaf70a0ec0d7191","#,
r#"        );"#,
r#"    }"#,
r#""#,
r#"    #[test]"#,
r#"    fn it_should_encrypt_test_vector_2() {"#,
r#"        check_cipher_vector("#,
r#"            "000102030405060708090a0b0c0d0e0f101112131415161718191a1b1c1d1e1f","#,
r#"            "00112233445566778899aabbccddeeff","#,
r#"            "8ea2b7ca516745bfeafc49904b496089","#,
r#"        );"#,
r#"    }"#,
r#"}"#]

/-- `src/aes_cbc.rs` -/
def aes_cbc : List String := [
r#"//! # AES-CBC"#,
r#"//!"#,
r#"//! Implementation of CBC-mode AES cipher/decipher."#,
r#"//!"#,
r#""#,
r#"use crate::aes::{AESError, AES, BLOCK_SIZE};"#,
r#"use crate::pkcs7;"#,
r#""#,
r#"use std::error::Error;"#,
r#"use std::fmt;"#,
r#"use std::fmt::Display;"#,
r#""#,
r#"///"#,
r#"/// Main AES-CBC Cipher structure."#,
r#"///"#,
r#"/// Usage:"#,
r#"/// ```rust"#,
r#"/// extern crate dumb_crypto;"#,
r#"///"#,
r#"/// use dumb_crypto::aes::BLOCK_SIZE;"#,
r#"/// use dumb_crypto::aes_cbc::Cipher;"#,
r#"///"#,
r#"/// let iv = ["#,
r#"///     0x4c, 0xb4, 0x52, 0xd6, 0x78, 0xca, 0x94, 0x61,"#,
r#"///     0x92, 0xcd, 0xc6, 0x91, 0xb7, 0xab, 0x61, 0x76,"#,
r#"/// ];"#,
r#"/// let key: [u8; 16] = ["#,
r#"///     0x69, 0xc2, 0xa9, 0xe6, 0x2b, 0x61, 0x30, 0x60,"#,
r#"///     0xc9, 0x79, 0x7b, 0xdc, 0xe4, 0xf6, 0x40, 0x8e,"#,
r#"/// ];"#,
r#"/// let mut cipher = Cipher::new(iv);"#,
r#"/// cipher.init(&key).unwrap();"#,
r#"///"#,
r#"/// let mut ciphertext = cipher.write("aes-cbc with iv".as_bytes()).unwrap();"#,
r#"/// ciphertext.append(&mut cipher.flush().unwrap());"#,
r#"/// ```"#,
r#"///"#,
r#"pub struct Cipher {"#,
r#"    aes: AES,"#,
r#"    pad: pkcs7::Pad,"#,
r#"    iv: [u8; BLOCK_SIZE],"#,
r#"}"#,
r#""#,
r#"impl Cipher {"#,
r#"    /// Create new instance of AES-CBC Cipher"#,
r#"    ///"#,
r#"    /// `iv` - Initialization Vector (this better be a very random value)"#,
r#"    pub fn new(iv: [u8; BLOCK_SIZE]) -> Self {"#,
r#"        Cipher {"#,
r#"            aes: AES::new(),"#,
r#"            pad: pkcs7::Pad::new(BLOCK_SIZE),"#,
r#"            iv,"#,
r#"        }"#,
r#"    }"#,
r#""#,
r#"    /// Initialize instance of AES-CBC Cipher"#,
r#"    ///"#,
r#"    /// `key` - AES Key. Must be either 128, 192, or 256 bits."#,
r#"    pub fn init(&mut self, key: &[u8]) -> Result<(), AESError> {"#,
r#"        self.aes.init(key)?;"#,
r#"        Ok(())"#,
r#"    }"#,
r#""#,
r#"    /// Encrypt data"#,
r#"    pub fn write(&mut self, b: &[u8]) -> Result<Vec<u8>, AESError> {"#,
r#"        let blocks = match self.pad.write(b) {"#,
r#"            None => {"#,
r#"                return Ok(vec![]);"#,
r#"            }"#,
r#"            Some(block) => block,"#,
r#"        };"#,
r#""#,
r#"        let mut result: Vec<u8> = Vec::with_capacity(blocks.len());"#,
r#"        for block in blocks.chunks(BLOCK_SIZE) {"#,
r#"            let mut ciphertext = self.encrypt_block(block)?;"#,
r#"            result.append(&mut ciphertext);"#,
r#"        }"#,
r#"        Ok(result)"#,
r#"    }"#,
r#""#,
r#"    /// Encrypt and return final cipher block"#,
r#"    pub fn flush(&mut self) -> Result<Vec<u8>, AESError> {"#,
r#"        let block = self.pad.flush();"#,
r#"        Ok(self.encrypt_block(&block)?)"#,
r#"    }"#,
r#""#,
r#"    fn encrypt_block(&mut self, b: &[u8]) -> Result<Vec<u8>, AESError> {"#,
r#"        let mut block = [0; BLOCK_SIZE];"#,
r#"        block.copy_from_slice(&b);"#,
r#""#,
r#"        for (elem, iv_elem) in block.iter_mut().zip(self.iv.iter()) {"#,
r#"            *elem ^= iv_elem;"#,
r#"        }"#,
r#""#,
r#"        match self.aes.encrypt(&block) {"#,
r#"            Ok(new_iv) => {"#,
r#"                self.iv = new_iv;"#,
r#"                Ok(new_iv.to_vec())"#,
r#"            }"#,
r#"            Err(err) => Err(err),"#,
r#"        }"#,
r#"    }"#,
r#"}"#,
r#""#,
r#"///"#,
r#"/// Main AES-CBC Decipher structure."#,
r#"///"#,
r#"/// Usage:"#,
r#"/// ```rust"#,
r#"/// extern crate dumb_crypto;"#,
r#"///"#,
r#"/// use::dumb_crypto::aes::BLOCK_SIZE;"#,
r#"/// use::dumb_crypto::aes_cbc::Decipher;"#,
r#"///"#,
r#"/// let iv = ["#,
r#"///     0x4c, 0xb4, 0x52, 0xd6, 0x78, 0xca, 0x94, 0x61,"#,
r#"///     0x92, 0xcd, 0xc6, 0x91, 0xb7, 0xab, 0x61, 0x76,"#,
r#"/// ];"#,
r#"/// let key: [u8; 16] = ["#,
r#"///     0x69, 0xc2, 0xa9, 0xe6, 0x2b, 0x61, 0x30, 0x60,"#,
r#"///     0xc9, 0x79, 0x7b, 0xdc, 0xe4, 0xf6, 0x40, 0x8e,"#,
r#"/// ];"#,
r#"/// let mut decipher = Decipher::new(iv);"#,
r#"/// decipher.init(&key).unwrap();"#,
r#"///"#,
r#"/// let mut cleartext = decipher.write(&["#,
r#"///     0x98, 0xba, 0x8e, 0x07, 0x5b, 0xcf, 0xa7, 0xb9,"#,
r#"///     0x3a, 0xbe, 0x45, 0x3a, 0xb1, 0x84, 0xdc, 0x68,"#,
r#"/// ]).unwrap();"#,
r#"/// cleartext.append(&mut decipher.flush().unwrap());"#,
r#"/// ```"#,
r#"///"#,
r#"pub struct Decipher {"#,
r#"    aes: AES,"#,
r#"    unpad: pkcs7::Unpad,"#,
r#"    iv: [u8; BLOCK_SIZE],"#,
r#"    buffer: pkcs7::Pad,"#,
r#"}"#,
r#""#,
r#"/// Possible decipher errors"#,
r#"#[derive(Debug, PartialEq)]"#,
r#"pub enum DecipherError {"#,
r#"    /// Returned on AES-specific errors"#,
r#"    AES(AESError),"#,
r#"    /// Returned on PKCS7-specific padding errors"#,
r#"    PKCS7(pkcs7::UnpadError),"#,
r#"}"#,
r#""#,
r#"impl Display for DecipherError {"#,
r#"    fn fmt(&self, f: &mut fmt::Formatter) -> fmt::Result {"#,
r#"        write!(f, "DecipherError: {}", self.description())"#,
r#"    }"#,
r#"}"#,
r#""#,
r#"impl Error for DecipherError {"#,
r#"    fn description(&self) -> &str {"#,
r#"        // TODO(indutny): prefix description"#,
r#"        match self {"#,
r#"            DecipherError::AES(err) => err.description(),"#,
r#"            DecipherError::PKCS7(err) => err.description(),"#,
r#"        }"#,
r#"    }"#,
r#"}"#,
r#""#,
r#"impl Decipher {"#,
r#"    /// Create new instance of AES-CBC Decipher"#,
r#"    ///"#,
r#"    /// `iv` - Initialization Vector (this better be a very random value)"#,
r#"    pub fn new(iv: [u8; BLOCK_SIZE]) -> Self {"#,
r#"        Decipher {"#,
r#"            aes: AES::new(),"#,
r#"            unpad: pkcs7::Unpad::new(BLOCK_SIZE),"#,
r#"            iv,"#,
r#"            buffer: pkcs7::Pad::new(BLOCK_SIZE),"#,
r#"        }"#,
r#"    }"#,
r#""#,
r#"    /// Initialize instance of AES-CBC Decipher"#,
r#"    ///"#,
r#"    /// `key` - AES Key. Must be either 128, 192, or 256 bits."#,
r#"    pub fn init(&mut self, key: &[u8]) -> Result<(), AESError> {"#,
r#"        self.aes.init(key)?;"#,
r#"        Ok(())"#,
r#"    }"#,
r#""#,
r#"    /// Decrypt data"#,
r#"    pub fn write(&mut self, b: &[u8]) -> Result<Vec<u8>, DecipherError> {"#,
r#"        let blocks = match self.buffer.write(b) {"#,
r#"            Some(blocks) => blocks,"#,
r#"            None => {"#,
r#"                return Ok(vec![]);"#,
r#"            }"#,
r#"        };"#,
r#""#,
r#"        let mut padded_result = Vec::with_capacity(blocks.len());"#,
r#"        for ciphertext in blocks.chunks(BLOCK_SIZE) {"#,
r#"            let mut block = [0; BLOCK_SIZE];"#,
r#"            block.copy_from_slice(&ciphertext);"#,
r#""#,
r#"            let mut cleartext = match self.aes.decrypt(&block) {"#,
r#"                Err(err) => return Err(DecipherError::AES(err)),"#,
r#"                Ok(out) => out,"#,
r#"            };"#,
r#""#,
r#"            for (elem, iv_elem) in cleartext.iter_mut().zip(self.iv.iter()) {"#,
r#"                *elem ^= iv_elem;"#,
r#"            }"#,
r#""#,
r#"            self.iv = block;"#,
r#"            padded_result.append(&mut cleartext.to_vec());"#,
r#"        }"#,
r#""#,
r#"        Ok(self.unpad.write(&padded_result).unwrap_or_default())"#,
r#"    }"#,
r#""#,
r#"    /// Decrypt and return final cleartext data"#,
r#"    pub fn flush(&mut self) -> Result<Vec<u8>, DecipherError> {"#,
r#"        match self.unpad.flush() {"#,
r#"            Err(err) => Err(DecipherError::PKCS7(err)),"#,
r#"            Ok(block) => Ok(block),"#,
r#"        }"#,
r#"    }"#,
r#"}"#,
r#""#,
r#"#[cfg(test)]"#,
r#"mod tests {"#,
r#"    use super::*;"#,
r#"    use crate::common::hex_to_vec;"#,
r#""#,
r#"    fn check(key: &str, iv: &str, cleartext: &str, ciphertext: &str) {"#,
r#"        let key_vec = hex_to_vec(key);"#,
r#"        let mut iv_arr = [0; BLOCK_SIZE];"#,
r#"        iv_arr.copy_from_slice(&hex_to_vec(iv));"#,
r#""#,
r#"        let mut cipher = Cipher::new(iv_arr);"#,
r#"        cipher.init(&key_vec).expect("cipher init to not fail");"#,
r#""#,
r#"        let mut actual = cipher"#,
r#"            .write(cleartext.as_bytes())"#,
r#"            .expect("cipher write to not fail");"#,
r#"        actual.append(&mut cipher.flush().expect("cipher flush to not fail"));"#,
r#""#,
r#"        assert_eq!(actual, hex_to_vec(ciphertext));"#,
r#""#,
r#"        let mut decipher = Decipher::new(iv_arr);"#,
r#"        decipher.init(&key_vec).expect("decipher init to not fail");"#,
r#"        let mut back = decipher"#,
r#"            .write(&hex_to_vec(ciphertext))"#,
r#"            .expect("decipher write to not fail");"#,
r#"        back.append(&mut decipher.flush().expect("decipher flush to not fail"));"#,
r#""#,
r#"        assert_eq!(back, cleartext.as_bytes());"#,
r#"    }"#,
r#""#,
r#"    #[test]"#,
r#"    fn it_should_not_fail_on_vec_0() {"#,
r#"        check("#,
r#"            "00000000000000000000000000000000","#,
r#"            "00000000000000000000000000000000","#,
r#"            "hello","#,
r#"            "9834ed518cbc8fbe9af3c6ecb75eb8c0","#,
r#"        );"#,
r#"    }"#,
r#""#,
r#"    #[test]"#,
r#"    fn it_should_not_fail_on_vec_1() {"#,
r#"        check("#,
r#"            "69c2a9e62b613060c9797bdce4f6408e","#,
r#"            "4cb452d678ca946192cdc691b7ab6176","#,
r#"            "aes-cbc with iv","#,
r#"            "98ba8e075bcfa7b93abe453ab184dc68","#,
r#"        );"#,
r#"    }"#,
r#""#,
r#"    #[test]"#,
r#"    fn it_should_not_fail_on_vec_2() {"#,
r#"        check("#,
r#"            "57e79712f7b7813490b63446e1bec39f","#,
r#"            "a32fd274f2d5392f1a217aaa37a5a44d","#,
r#"            "several AES blocks means more xoring","#,
r#"            "d1aa1d92d6a93c84032ae322102aba62692b2548e92abc9f8d19bb42dd172e84c4102ff8d45889011b87de27f6d91ae4","#,
r#"        );"#,
r#"    }"#,
r#"}"#]

end Verif.Text.Files
