#!/usr/bin/env python3
"""Writes lean/Verif/Text/Files.lean, the text of /repo/src line by line.

usage: text2lean.py [SRC_DIR [OUT_FILE]]"""
import sys, os
SRC = sys.argv[1] if len(sys.argv) > 1 else '/repo/src'
OUT = sys.argv[2] if len(sys.argv) > 2 else os.path.join(os.path.dirname(os.path.abspath(__file__)), '../lean/Verif/Text/Files.lean')
FILES = ['lib', 'common', 'sha256', 'hmac', 'pbkdf2', 'salsa20', 'scrypt', 'pkcs7', 'aes', 'aes_cbc']
out = ['-- Generated by tools/text2lean.py from /repo/src. Do not edit.\n',
       '/-! The text of the files of `/repo/src`: their lines, without the line feed that ends each of them. -/\n',
       'namespace Verif.Text.Files\n', 'set_option maxRecDepth 20000\n']
for f in FILES:
    t = open(f'{SRC}/{f}.rs', newline='').read()
    assert t.endswith('\n') and '"#' not in t and '\r' not in t
    ls = t[:-1].split('\n')
    out.append(f'/-- `src/{f}.rs` -/\ndef {f} : List String := [\n' + ',\n'.join(f'r#"{l}"#' for l in ls) + ']\n')
out.append('end Verif.Text.Files\n')
open(OUT, 'w').write('\n'.join(out))
