#!/usr/bin/env python3
"""Generates lean/Verif/Source/{Names,Gen/*}.lean from the text of /repo/src.

usage: rust2lean.py [SRC_DIR [OUT_DIR]]      (default /repo/src and ../lean/Verif/Source)

The output is the abstract syntax (Verif/Source/Syntax.lean) of every function, method and constant of the crate
outside `#[cfg(test)]`. See Syntax.lean for what is done beyond parsing.
Anything outside the fragment stops the generator with an error."""
import re, sys, os

SRC = sys.argv[1] if len(sys.argv) > 1 else '/repo/src'
OUT = sys.argv[2] if len(sys.argv) > 2 else os.path.join(os.path.dirname(os.path.abspath(__file__)), '../lean/Verif/Source')
MODULES = ['sha256', 'hmac', 'pbkdf2', 'salsa20', 'scrypt', 'pkcs7', 'aes', 'aes_cbc']
TITLE = dict(sha256='Sha256', hmac='Hmac', pbkdf2='Pbkdf2', salsa20='Salsa20', scrypt='Scrypt', pkcs7='Pkcs7', aes='Aes', aes_cbc='AesCbc')

# ---------------------------------------------------------------- tokens
TOK = re.compile(r'''
  (?P<ws>\s+|//[^\n]*|/\*.*?\*/)
 |(?P<str>"(?:[^"\\]|\\.)*")
 |(?P<chr>b?'(?:[^'\\]|\\.)')
 |(?P<num>0x[0-9a-fA-F_]+|[0-9][0-9_]*)
 |(?P<id>[A-Za-z_][A-Za-z0-9_]*)
 |(?P<op><<=|>>=|\.\.\.|\.\.=|->|=>|::|\.\.|<<|>>|&&|\|\||==|!=|<=|>=|\+=|-=|\*=|/=|%=|\^=|\|=|&=|[-+*/%^&|!<>=.,;:(){}\[\]\#?$])
''', re.X | re.S)

class Tok:
    def __init__(s, kind, text, line): s.kind, s.text, s.line = kind, text, line
    def __repr__(s): return f'{s.text!r}@{s.line}'

def lex(text):
    out, pos, line = [], 0, 1
    while pos < len(text):
        m = TOK.match(text, pos)
        if not m: raise SystemExit(f'cannot lex line {line}: {text[pos:pos+20]!r}')
        if m.lastgroup != 'ws': out.append(Tok(m.lastgroup, m.group(), line))
        line += m.group().count('\n'); pos = m.end()
    return out

# ---------------------------------------------------------------- types
class TVar:
    def __init__(s, kind): s.kind, s.ref = kind, None      # kind: 'int' or 'any'
class T:
    def __init__(s, name, *args): s.name, s.args = name, list(args)
    def __repr__(s): return s.name + (f'{s.args}' if s.args else '')
INTS = ('u8', 'u32', 'u64', 'usize', 'i32')
def prune(t):
    while isinstance(t, TVar) and t.ref is not None: t = t.ref
    return t
def unify(a, b, line=None):
    a, b = prune(a), prune(b)
    if a is b: return
    if isinstance(a, TVar):
        if isinstance(b, TVar):
            if a.kind == 'any': a.ref = b
            else: b.ref = a
            return
        if a.kind == 'int' and b.name not in INTS: raise SystemExit(f'line {line}: integer vs {b}')
        a.ref = b; return
    if isinstance(b, TVar): return unify(b, a, line)
    if a.name == 'never' or b.name == 'never': return
    if a.name != b.name or len(a.args) != len(b.args): raise SystemExit(f'line {line}: {a} vs {b}')
    for x, y in zip(a.args, b.args): unify(x, y, line)
def seq(t): return T('seq', t)
UNIT, BOOL, STR = T('unit'), T('bool'), T('str')
def tint(n): return T(n)

# ---------------------------------------------------------------- parser
class Node:
    def __init__(s, k, line, **kw): s.k, s.line = k, line; s.__dict__.update(kw)

PREC = [('||',), ('&&',), ('==', '!=', '<', '>', '<=', '>='), ('|',), ('^',), ('&',), ('<<', '>>'), ('+', '-'), ('*', '/', '%')]
ASSIGN = {'=': None, '+=': 'add', '-=': 'sub', '*=': 'mul', '/=': 'div', '%=': 'rem', '^=': 'xor', '|=': 'or', '&=': 'and', '<<=': 'shl', '>>=': 'shr'}
BIN = {'+': 'add', '-': 'sub', '*': 'mul', '/': 'div', '%': 'rem', '&': 'and', '|': 'or', '^': 'xor', '<<': 'shl', '>>': 'shr',
       '==': 'eq', '!=': 'ne', '<': 'lt', '<=': 'le', '>': 'gt', '>=': 'ge'}

class Parser:
    def __init__(s, toks, macros): s.t, s.i, s.macros = toks, 0, macros
    def peek(s, k=0): return s.t[s.i + k].text if s.i + k < len(s.t) else None
    def kind(s, k=0): return s.t[s.i + k].kind if s.i + k < len(s.t) else None
    def line(s): return s.t[min(s.i, len(s.t) - 1)].line
    def next(s): s.i += 1; return s.t[s.i - 1]
    def eat(s, x):
        if s.peek() == x and s.kind() != 'str': s.i += 1; return True
        return False
    def need(s, x):
        if not s.eat(x): raise SystemExit(f'line {s.line()}: expected {x!r}, found {s.peek()!r}')
    def ident(s):
        if s.kind() != 'id': raise SystemExit(f'line {s.line()}: identifier expected, found {s.peek()!r}')
        return s.next().text
    # -- types
    def ty(s):
        if s.eat('&'): s.eat('mut'); return s.ty()
        if s.eat('('): s.need(')'); return ('unit',)
        if s.eat('['):
            t = s.ty()
            if s.eat(';'): s.expr()
            s.need(']'); return ('seq', t)
        path = s.path(); args = []
        if s.eat('<'):
            while not s.eat('>'):
                if s.peek() == '>>':       # split
                    s.t[s.i] = Tok('op', '>', s.line())
                    return ('path', path, args)
                args.append(s.ty()); s.eat(',')
        return ('path', path, args)
    def path(s):
        p = [s.ident()]
        while s.eat('::'): p.append(s.ident())
        return p
    # -- patterns
    def pat(s):
        ln = s.line()
        if s.eat('&'): return s.pat()
        if s.eat('_'): return Node('pwild', ln)
        if s.eat('('):
            ps = []
            while not s.eat(')'): ps.append(s.pat()); s.eat(',')
            return Node('ptup', ln, ps=ps)
        if s.kind() == 'num': return Node('pint', ln, n=num(s.next().text))
        s.eat('mut')
        p = s.path()
        if p == ['_']: return Node('pwild', ln)
        if s.eat('('):
            ps = []
            while not s.eat(')'): ps.append(s.pat()); s.eat(',')
            return Node('pctor', ln, path=p, ps=ps)
        if len(p) > 1 or p[0][0].isupper(): return Node('pctor', ln, path=p, ps=[])
        return Node('pvar', ln, x=p[0])
    # -- expressions
    def expr(s, struct=True):
        return s.assign(struct)
    def assign(s, struct):
        ln = s.line()
        if s.eat('return'):
            e = Node('unit', ln) if s.peek() in (';', '}') else s.expr(struct)
            return Node('return', ln, e=e)
        if s.eat('continue'): return Node('continue', ln)
        if s.peek() == '|':
            s.need('|'); p = s.pat(); s.need('|')
            return Node('closure', ln, p=p, e=s.expr(struct))
        l = s.range(struct)
        if s.peek() in ASSIGN and s.kind() == 'op':
            op = s.next().text
            return Node('assign', ln, op=ASSIGN[op], x=l, e=s.assign(struct))
        return l
    def range(s, struct):
        ln = s.line()
        if s.eat('..'):
            if s.peek() in (']', ')'): return Node('range', ln, lo=None, hi=None, incl=False)
            return Node('range', ln, lo=None, hi=s.binary(0, struct), incl=False)
        l = s.binary(0, struct)
        if s.peek() in ('..', '..='):
            incl = s.next().text == '..='
            hi = None if s.peek() in (']', ')') else s.binary(0, struct)
            return Node('range', ln, lo=l, hi=hi, incl=incl)
        return l
    def binary(s, p, struct):
        if p == len(PREC): return s.castx(struct)
        l = s.binary(p + 1, struct)
        while s.peek() in PREC[p] and s.kind() == 'op':
            ln = s.line(); op = s.next().text
            r = s.binary(p + 1, struct)
            l = Node('and' if op == '&&' else 'bin', ln, op=BIN.get(op), a=l, b=r)
            if op == '||': raise SystemExit('|| not in fragment')
        return l
    def castx(s, struct):
        e = s.unary(struct)
        while s.peek() == 'as':
            ln = s.line(); s.next(); e = Node('cast', ln, e=e, ty=s.ty())
        return e
    def unary(s, struct):
        ln = s.line()
        if s.eat('!'): return Node('not', ln, e=s.unary(struct))
        if s.eat('*'): return Node('deref', ln, e=s.unary(struct))
        if s.eat('&'):
            m = s.eat('mut'); return Node('ref', ln, mut=m, e=s.unary(struct))
        return s.postfix(struct)
    def args(s, close=')'):
        a = []
        while not s.eat(close):
            a.append(s.expr())
            if not s.eat(','): s.need(close); break
        return a
    def postfix(s, struct):
        e = s.atom(struct)
        while True:
            ln = s.line()
            if s.eat('?'): e = Node('try', ln, e=e)
            elif s.eat('['):
                i = s.expr(); s.need(']'); e = Node('index', ln, e=e, i=i)
            elif s.peek() == '.' and s.kind(1) == 'id':
                s.next(); f = s.ident()
                if s.eat('('): e = Node('method', ln, e=e, f=f, args=s.args())
                else: e = Node('field', ln, e=e, f=f)
            elif s.peek() == '(' and e.k == 'path': s.next(); e = Node('call', ln, path=e.path, args=s.args())
            else: return e
    def atom(s, struct):
        ln = s.line()
        if s.kind() == 'num': return Node('int', ln, n=num(s.next().text), t=TVar('int'))
        if s.kind() == 'str': return Node('str', ln, v=eval(s.next().text))
        if s.eat('('):
            if s.eat(')'): return Node('unit', ln)
            e = s.expr()
            if s.eat(','): raise SystemExit('tuple expression not in fragment')
            s.need(')'); return Node('paren', ln, e=e)
        if s.eat('['):
            if s.eat(']'): return Node('array', ln, es=[])
            e = s.expr()
            if s.eat(';'):
                n = s.expr(); s.need(']'); return Node('repeat', ln, e=e, n=n)
            es = [e]
            while s.eat(','):
                if s.peek() == ']': break
                es.append(s.expr())
            s.need(']'); return Node('array', ln, es=es)
        if s.peek() == '{': return s.block()
        if s.eat('if'):
            c = s.expr(False); a = s.block()
            b = None
            if s.eat('else'): b = s.atom(struct) if s.peek() == 'if' else s.block()
            return Node('if', ln, c=c, a=a, b=b)
        if s.eat('match'):
            e = s.expr(False); s.need('{'); arms = []
            while not s.eat('}'):
                p = s.pat(); s.need('=>'); b = s.expr(); s.eat(',')
                arms.append((p, b))
            return Node('match', ln, e=e, arms=arms)
        if s.eat('while'):
            if s.peek() == 'let': raise SystemExit('while let not in fragment')
            c = s.expr(False); return Node('while', ln, c=c, body=s.block())
        if s.eat('for'):
            p = s.pat(); s.need('in'); e = s.expr(False)
            return Node('for', ln, p=p, e=e, body=s.block())
        p = s.path()
        if s.peek() == '!' and s.peek(1) in ('(', '['):
            s.next(); return s.macro(p[-1], ln)
        if struct and s.peek() == '{' and p[-1][0].isupper():
            s.next(); fs = []
            while not s.eat('}'):
                f = s.ident()
                v = s.expr() if s.eat(':') else Node('path', s.line(), path=[f])
                fs.append((f, v)); s.eat(',')
            return Node('struct', ln, path=p, fs=fs)
        return Node('path', ln, path=p)
    def macro(s, name, ln):
        if name == 'vec':
            s.need('[')
            if s.eat(']'): return Node('array', ln, es=[])
            e = s.expr(); s.need(';'); n = s.expr(); s.need(']')
            return Node('vecrepeat', ln, e=e, n=n)
        if name == 'write':
            s.need('('); args = s.args()
            if len(args) != 3 or args[1].k != 'str' or args[1].v.count('{}') != 1 or args[1].v.count('{') != 1 or args[1].v.count('}') != 1:
                raise SystemExit(f'line {ln}: write')
            return Node('write', ln, x=args[0], parts=args[1].v.split('{}'), e=args[2])
        if name not in s.macros: raise SystemExit(f'line {ln}: macro {name}')
        s.need('('); args = s.args()
        return s.macros[name](args, ln)
    def block(s):
        ln = s.line(); s.need('{'); ss, tail = [], None
        while not s.eat('}'):
            if s.eat('let'):
                l2 = s.line(); p = s.pat(); t = s.ty() if s.eat(':') else None
                e = s.expr() if s.eat('=') else None
                s.need(';'); ss.append(Node('let', l2, p=p, ty=t, e=e)); continue
            e = s.expr()
            if s.eat(';'): ss.append(e)
            elif s.peek() == '}': tail = e
            elif e.k in ('if', 'while', 'for', 'match', 'block'): ss.append(e)
            else: raise SystemExit(f'line {s.line()}: ; expected, found {s.peek()!r}')
        return Node('block', ln, ss=ss, tail=tail)

def num(x): return int(x.replace('_', ''), 0)

# ---------------------------------------------------------------- macro_rules
def skip_group(p):
    """skips a balanced group, returns the tokens inside"""
    pair = {'(': ')', '[': ']', '{': '}'}
    close = [pair[p.next().text]]; inner = []
    while close:
        t = p.next()
        if t.kind != 'str' and t.text in pair: close.append(pair[t.text])
        elif t.kind != 'str' and t.text == close[-1]:
            close.pop()
            if not close: break
        inner.append(t)
    return inner

def read_macros(text):
    """`macro_rules! name { ( $a:expr, $( $x:expr ),* ) => { body }; }`"""
    macros = {}
    p = Parser(lex(text), {})
    while p.i < len(p.t):
        if p.peek() == 'macro_rules':
            p.next(); p.need('!'); name = p.ident()
            inner = skip_group(p)
            q = Parser(inner, {})
            head = [t.text for t in skip_group(q)]; q.need('=>')
            body = skip_group(q)
            want = ['$', 'a', ':', 'expr', ',', '$', '(', '$', 'x', ':', 'expr', ')', ',', '*']
            if head != want: raise SystemExit(f'macro pattern {head}')
            def expand(args, ln, body=body):
                toks, i = [], 0
                nodes = {}
                def put(e, line):
                    k = f'__macro_arg_{len(nodes)}'; nodes[k] = e; toks.append(Tok('id', k, line))
                while i < len(body):
                    t = body[i]
                    if t.text == '$' and body[i + 1].text == 'a': put(args[0], t.line); i += 2
                    elif t.text == '$' and body[i + 1].text == '(':
                        r = Parser(body, {}); r.i = i + 1; grp = skip_group(r)
                        if body[r.i].text != '*': raise SystemExit('macro repetition')
                        i = r.i + 1
                        for x in args[1:]:
                            j = 0
                            while j < len(grp):
                                if grp[j].text == '$' and grp[j + 1].text == 'x': put(x, grp[j].line); j += 2
                                else: toks.append(grp[j]); j += 1
                    else: toks.append(t); i += 1
                e = Parser(toks, {}).expr()
                def fill(n):
                    if isinstance(n, Node):
                        if n.k == 'path' and n.path[0] in nodes: return nodes[n.path[0]]
                        for k, v in list(n.__dict__.items()):
                            if k in ('k', 'line', 't', 'ty'): continue
                            setattr(n, k, fill(v))
                        n.line = ln
                        return n
                    if isinstance(n, list): return [fill(x) for x in n]
                    if isinstance(n, tuple): return tuple(fill(x) for x in n)
                    return n
                return fill(e)
            macros[name] = expand
        else: p.next()
    return macros

# ---------------------------------------------------------------- items
class Fn:
    pass
fns, consts, structs, enums, ctor_names = [], [], {}, {}, []
uses = {m: {} for m in MODULES}                 # module -> local name -> full path (list)
local = {m: {} for m in MODULES}                # module -> name -> kind
aliases = {m: {} for m in MODULES}

def items(mod, text):
    p = Parser(lex(text), MACROS)
    skip = False
    while p.i < len(p.t):
        ln = p.line()
        if p.eat('#'):
            p.eat('!'); g = [t.text for t in skip_group(p)]
            if g == ['cfg', '(', 'test', ')']: skip = True
            continue
        if skip:
            while p.peek() != '{': p.next()
            skip_group(p); skip = False; continue
        p.eat('pub')
        if p.eat('use'):
            def tree(prefix):
                while True:
                    if p.eat('{'):
                        while not p.eat('}'): tree(prefix); p.eat(',')
                        return
                    n = p.ident(); prefix = prefix + [n]
                    if not p.eat('::'): break
                uses[mod][p.ident() if p.eat('as') else prefix[-1]] = prefix
            tree([]); p.need(';')
        elif p.eat('const'):
            n = p.ident(); p.need(':'); t = p.ty(); p.need('='); e = p.expr(); end = p.line(); p.need(';')
            consts.append(dict(mod=mod, name=n, ty=t, e=e, lines=(ln, end))); local[mod][n] = 'const'
        elif p.eat('type'):
            n = p.ident(); p.need('='); aliases[mod][n] = p.ty(); p.need(';')
        elif p.eat('struct'):
            n = p.ident(); p.need('{'); fs = []
            while not p.eat('}'):
                p.eat('pub'); f = p.ident(); p.need(':'); fs.append((f, p.ty())); p.eat(',')
            structs[n] = dict(mod=mod, fs=fs); local[mod][n] = 'struct'
        elif p.eat('enum'):
            n = p.ident(); p.need('{'); vs = []
            while not p.eat('}'):
                v = p.ident(); args = []
                if p.eat('('):
                    while not p.eat(')'): args.append(p.ty()); p.eat(',')
                vs.append((v, args)); p.eat(',')
            enums[n] = dict(mod=mod, vs=vs); local[mod][n] = 'enum'
        elif p.eat('trait'):
            n = p.ident(); p.need('{'); defaults = []
            while not p.eat('}'):
                f = function(p, mod)
                if f.body is not None: defaults.append((f, p))
            traits[n] = dict(mod=mod, defaults=[f for f, _ in defaults])
        elif p.eat('impl'):
            n = p.ident(); tr = None
            if p.eat('for'): tr, n = n, p.ident()
            p.need('{')
            while not p.eat('}'):
                f = function(p, mod); f.owner = n; fns.append(f)
            if tr in traits:
                import copy
                for f in traits[tr]['defaults']:
                    g = copy.deepcopy(f); g.owner = n; fns.append(g)
        elif p.peek() in ('fn',):
            f = function(p, mod); f.owner = None; fns.append(f); local[mod][f.name] = 'fn'
        else: raise SystemExit(f'src/{mod}.rs:{ln}: item {p.peek()!r}')

def function(p, mod):
    f = Fn(); f.mod, f.start = mod, p.line()
    p.eat('pub'); p.need('fn'); f.name = p.ident(); p.need('('); f.params = []
    while not p.eat(')'):
        mode = 'val'
        if p.peek() in ('&', 'self', 'mut') and 'self' in (p.peek(), p.peek(1), p.peek(2)) and p.peek(1) != ':' and p.peek(2) != ':':
            ref = p.eat('&'); m = p.eat('mut'); p.need('self')
            f.params.append(('self', 'mutRef' if ref and m else 'val', ('path', ['Self'], [])))
        else:
            p.eat('mut'); n = p.ident(); p.need(':')
            if p.peek() == '&' and p.peek(1) == 'mut': mode = 'mutRef'
            f.params.append((n, mode, p.ty()))
        p.eat(',')
    f.ret = p.ty() if p.eat('->') else ('unit',)
    f.body = None if p.eat(';') else p.block()
    f.end = p.t[p.i - 1].line
    return f

traits = {}

# ---------------------------------------------------------------- names
def resolve(mod, path):
    """full path of a name used in module `mod`"""
    h = path[0]
    if h in uses[mod]: path = uses[mod][h] + path[1:]
    if path[0] == 'crate': path = path[1:]
    if len(path) > 1 and path[0] in MODULES: return path[0], path[1:]
    return mod, path

class Ctx:
    """type inference and emission for one function"""
    def __init__(s, mod, owner): s.mod, s.owner, s.scopes, s.ret = mod, owner, [{}], None
    def self_path(s, path): return [s.owner] + path[1:] if path[0] == 'Self' else path
    def ty(s, t):
        if t[0] == 'unit': return UNIT
        if t[0] == 'seq': return seq(s.ty(t[1]))
        path, args = s.self_path(t[1]), t[2]
        if path == ['Vec']: return seq(s.ty(args[0]))
        if path in (['Option'], ['Result']): return T(path[0], *[s.ty(a) for a in args])
        if path[0] in INTS: return T(path[0])
        if path == ['bool']: return BOOL
        if path == ['str']: return STR
        if path == ['fmt', 'Formatter']: return T('Formatter')
        if path == ['fmt', 'Result']: return T('Result', UNIT, T('fmt::Error'))
        m, p = resolve(s.mod, path)
        if p[-1] in aliases[m]: return Ctx(m, None).ty(aliases[m][p[-1]])
        if p[-1] in structs or p[-1] in enums: return T(p[-1])
        raise SystemExit(f'type {path}')
    def look(s, x):
        for sc in reversed(s.scopes):
            if x in sc: return sc[x]
        return None
    # -- patterns: returns Lean text thunk
    def pat(s, p, t):
        if p.k == 'pwild': return lambda: '.wild'
        if p.k == 'pvar':
            s.scopes[-1][p.x] = t; ids.add(p.x)
            return lambda: f'(.var {idn(p.x)})'
        if p.k == 'pint':
            unify(t, TVar('int'), p.line)
            return lambda: f'(.int .{intname(t)} {p.n})'
        if p.k == 'ptup':
            vs = [TVar('any') for _ in p.ps]; unify(t, T('tup', *vs), p.line)
            q = [s.pat(x, v) for x, v in zip(p.ps, vs)]
            return lambda: f'(.tup [{", ".join(x() for x in q)}])'
        c, at, rt = s.ctor(p.path, p.line); unify(t, rt, p.line)
        q = [s.pat(x, v) for x, v in zip(p.ps, at)]
        assert len(p.ps) == len(at)
        return lambda: f'(.ctor .{c} [{", ".join(x() for x in q)}])'
    def ctor(s, path, line):
        if path == ['Some']: a = TVar('any'); return 'Some', [a], T('Option', a)
        if path == ['None']: return 'None', [], T('Option', TVar('any'))
        if path == ['Ok']: a, b = TVar('any'), TVar('any'); return 'Ok', [a], T('Result', a, b)
        if path == ['Err']: a, b = TVar('any'), TVar('any'); return 'Err', [b], T('Result', a, b)
        m, p = resolve(s.mod, s.self_path(path))
        if len(p) == 2 and p[0] in enums:
            for v, args in enums[p[0]]['vs']:
                if v == p[1]: return f'{p[0]}_{v}', [Ctx(m, None).ty(a) for a in args], T(p[0])
        return None
    # -- expressions: e -> (type, thunk producing Lean lines)
    def ex(s, e, want=None):
        t, g = s.ex0(e)
        if want is not None: unify(t, want, e.line)
        return t, g
    def isplace(s, e):
        if e.k == 'path': return len(e.path) == 1 and s.look(e.path[0]) is not None
        if e.k in ('field', 'index', 'deref', 'paren'): return s.isplace(e.e)
        return False
    def strip(s, e):
        while e.k in ('ref', 'paren', 'deref'): e = e.e
        return e
    def args(s, es, ts):
        if len(es) != len(ts): raise SystemExit(f'line {es[0].line if es else 0}: argument count')
        return [s.ex(e, t)[1] for e, t in zip(es, ts)]
    def userfn(s, f, args, line):
        c = Ctx(f.mod, f.owner)
        g = s.args(args, [c.ty(t) for _, _, t in f.params])
        for (n, m, _), a in zip(f.params, args):
            if m == 'mutRef' and not s.isplace(s.strip(a)): raise SystemExit(f'line {line}: &mut of a temporary')
        return c.ty(f.ret), lambda: app('call', f'.{fname(f)}', lst(g))
    def ex0(s, e):
        k = e.k
        if k in ('paren', 'deref', 'ref'): return s.ex0(e.e)
        if k == 'int':
            return e.t, lambda: [f'.int .{intname(e.t)} {e.n}']
        if k == 'str': return STR, lambda: ['.str ' + lean_str(e.v)]
        if k == 'unit': return UNIT, lambda: ['.unit']
        if k == 'path':
            path = e.path
            if len(path) == 1 and s.look(path[0]) is not None:
                return s.look(path[0]), lambda: [f'.var {idn(path[0])}']
            m, p = resolve(s.mod, path)
            for c in consts:
                if c['mod'] == m and [c['name']] == p:
                    return Ctx(m, None).ty(c['ty']), lambda: [f'.const .{m}_{c["name"]}']
            r = s.ctor(path, e.line)
            if r and not r[1]: return r[2], lambda: [f'.ctor .{r[0]} []']
            raise SystemExit(f'src/{s.mod}.rs:{e.line}: name {path}')
        if k == 'not':
            t, g = s.ex(e.e); return t, lambda: app('not', g)
        if k == 'and':
            _, a = s.ex(e.a, BOOL); _, b = s.ex(e.b, BOOL); return BOOL, lambda: app('andAlso', a, b)
        if k == 'bin':
            ta, a = s.ex(e.a); tb, b = s.ex(e.b)
            if e.op not in ('shl', 'shr'): unify(ta, tb, e.line)
            t = BOOL if e.op in ('eq', 'ne', 'lt', 'le', 'gt', 'ge') else ta
            return t, lambda: app('bin', f'.{e.op}', a, b)
        if k == 'cast':
            _, g = s.ex(e.e); t = s.ty(e.ty); return t, lambda: app('cast', g, f'.{t.name}')
        if k == 'field':
            t, g = s.ex(e.e); t = prune(t)
            for f, ft in structs[t.name]['fs']:
                if f == e.f:
                    ids.add(f); return Ctx(structs[t.name]['mod'], None).ty(ft), lambda: app('field', g, idn(f))
            raise SystemExit(f'line {e.line}: field {e.f}')
        if k == 'index':
            a = TVar('any'); _, g = s.ex(e.e, seq(a))
            if e.i.k == 'range':
                lo = s.ex(e.i.lo, tint('usize'))[1] if e.i.lo else None
                hi = s.ex(e.i.hi, tint('usize'))[1] if e.i.hi else None
                if e.i.incl: raise SystemExit('inclusive slice')
                if lo and hi: return seq(a), lambda: app('slice', g, lo, hi)
                if hi: return seq(a), lambda: app('sliceTo', g, hi)
                return seq(a), lambda: app('sliceFrom', g, lo)
            _, i = s.ex(e.i, tint('usize')); return a, lambda: app('index', g, i)
        if k == 'range':
            t, lo = s.ex(e.lo); _, hi = s.ex(e.hi, t)
            return seq(t), lambda: app('rangeIncl' if e.incl else 'range', lo, hi)
        if k == 'array':
            t = TVar('any'); g = [s.ex(x, t)[1] for x in e.es]; return seq(t), lambda: app('array', lst(g))
        if k == 'repeat':
            t, g = s.ex(e.e); _, n = s.ex(e.n, tint('usize')); return seq(t), lambda: app('repeat', g, n)
        if k == 'vecrepeat':
            t, g = s.ex(e.e); _, n = s.ex(e.n, tint('usize'))
            return seq(t), lambda: app('prim', f'(.vecRepeat .{elem(t)})', lst([g, n]))
        if k == 'struct':
            m, p = resolve(s.mod, s.self_path(e.path)); S = structs[p[-1]]; c = Ctx(S['mod'], None)
            ft = dict(S['fs'])
            if sorted(ft) != sorted(f for f, _ in e.fs): raise SystemExit('struct fields')
            g = [s.ex(v, c.ty(ft[f]))[1] for f, v in e.fs]
            for f, _ in e.fs: ids.add(f)
            return T(p[-1]), lambda: app('struct', f'.{p[-1]}', '[' + ', '.join(idn(f) for f, _ in e.fs) + ']', lst(g))
        if k == 'call': return s.callx(e)
        if k == 'method': return s.method(e)
        if k == 'if':
            _, c = s.ex(e.c, BOOL); ta, a = s.ex(e.a)
            if e.b is None: unify(ta, UNIT, e.line); return UNIT, lambda: app('ite', c, a, ['.unit'])
            _, b = s.ex(e.b, ta); return ta, lambda: app('ite', c, a, b)
        if k == 'match':
            t, g = s.ex(e.e); r = TVar('any'); ps, bs = [], []
            for p, b in e.arms:
                s.scopes.append({}); ps.append(s.pat(p, t)); bs.append(s.ex(b, r)[1]); s.scopes.pop()
            return r, lambda: app('match', g, '[' + ', '.join(p() for p in ps) + ']', lst(bs))
        if k == 'block':
            s.scopes.append({}); gs = []; dead = False
            for x in e.ss:
                if x.k == 'let': gs.append(s.let(x))
                else:
                    t, g = s.ex(x); gs.append(g)
                    if x.k in ('return', 'continue'): dead = True
            if e.tail is None: t, g = (TVar('any') if dead else UNIT), (lambda: ['.unit'])
            else: t, g = s.ex(e.tail)
            s.scopes.pop()
            return t, lambda: app('block', lst(gs), g)
        if k == 'assign':
            if not s.isplace(s.strip(e.x)): raise SystemExit(f'line {e.line}: assignment to a non-place')
            t, x = s.ex(e.x); tv, v = s.ex(e.e)
            if e.op not in ('shl', 'shr'): unify(t, tv, e.line)
            if e.op is None: return UNIT, lambda: app('assign', x, v)
            return UNIT, lambda: app('assignOp', f'.{e.op}', x, v)
        if k == 'return':
            _, g = s.ex(e.e, s.ret); return TVar('any'), lambda: app('return', g)
        if k == 'continue': return TVar('any'), lambda: ['.continue']
        if k == 'try':
            a, b = TVar('any'), TVar('any'); _, g = s.ex(e.e, T('Result', a, b))
            unify(s.ret, T('Result', TVar('any'), b), e.line)      # no conversion of the error
            return a, lambda: app('try', g)
        if k == 'while':
            _, c = s.ex(e.c, BOOL); _, b = s.ex(e.body, UNIT); return UNIT, lambda: app('while', c, b)
        if k == 'for': return s.forx(e)
        if k == 'write':
            if not s.isplace(s.strip(e.x)): raise SystemExit(f'line {e.line}: write')
            _, x = s.ex(e.x, T('Formatter')); _, g = s.ex(e.e, STR); pre, post = (lean_str(z) for z in e.parts)
            return T('Result', UNIT, T('fmt::Error')), lambda: app('mutPrim', f'(.write {pre} {post})', x, lst([g]))
        raise SystemExit(f'line {e.line}: {k}')
    def let(s, x):
        t = s.ty(x.ty) if x.ty else TVar('any')
        if x.e is None:
            assert x.p.k == 'pvar'; s.scopes[-1][x.p.x] = t; ids.add(x.p.x)
            return lambda: app('decl', idn(x.p.x))
        _, g = s.ex(x.e, t); p = s.pat(x.p, t)
        return lambda: app('let', p(), g)
    def forx(s, e):
        chain, it = [], e.e
        while it.k == 'method': chain.append((it.f, it.args)); it = it.e
        chain.reverse()
        if chain and chain[0][0] == 'iter_mut':
            a = TVar('any'); _, place = s.ex(it, seq(a))
            if not s.isplace(s.strip(it)): raise SystemExit(f'line {e.line}: iter_mut')
            rest = chain[1:]; s.scopes.append({})
            def var(p, t):
                assert p.k == 'pvar'; s.pat(p, t); return p.x
            if rest == []:
                x = var(e.p, a); _, b = s.ex(e.body, UNIT); s.scopes.pop()
                return UNIT, lambda: app('forMut', idn(x), place, b)
            if len(rest) == 1 and rest[0][0] == 'enumerate':
                i = var(e.p.ps[0], tint('usize')); x = var(e.p.ps[1], a); _, b = s.ex(e.body, UNIT); s.scopes.pop()
                return UNIT, lambda: app('forMutEnum', idn(i), idn(x), place, b)
            if len(rest) == 1 and rest[0][0] == 'zip':
                s.scopes.pop(); c = TVar('any'); _, z = s.ex(rest[0][1][0], seq(c)); s.scopes.append({})
                x = var(e.p.ps[0], a); q = s.pat(e.p.ps[1], c); _, b = s.ex(e.body, UNIT); s.scopes.pop()
                return UNIT, lambda: app('forMutZip', idn(x), q(), place, z, b)
            raise SystemExit(f'line {e.line}: iter_mut chain')
        a = TVar('any'); _, g = s.ex(e.e, seq(a))
        s.scopes.append({}); p = s.pat(e.p, a); _, b = s.ex(e.body, UNIT); s.scopes.pop()
        return UNIT, lambda: app('for', p(), g, b)
    def callx(s, e):
        path = s.self_path(e.path)
        if len(path) == 2 and path[0] in INTS and path[1] == 'from':
            _, g = s.ex(e.args[0]); return T(path[0]), lambda: app('from', f'.{path[0]}', g)
        if path == ['Vec', 'with_capacity']:
            a = TVar('any'); g = s.args(e.args, [tint('usize')])
            return seq(a), lambda: app('prim', f'(.withCapacity .{elem(a)})', lst(g))
        if path == ['std', 'cmp', 'min']:
            t = TVar('int'); g = s.args(e.args, [t, t]); return t, lambda: app('prim', '.min', lst(g))
        r = s.ctor(path, e.line)
        if r:
            g = s.args(e.args, r[1]); return r[2], lambda: app('ctor', f'.{r[0]}', lst(g))
        m, p = resolve(s.mod, path)
        f = find(m, p)
        if f is None: raise SystemExit(f'src/{s.mod}.rs:{e.line}: function {path}')
        return s.userfn(f, e.args, e.line)
    def method(s, e):
        t, r = s.ex(e.e); t = prune(t)
        if isinstance(t, T) and (t.name in structs or t.name in enums):
            D = structs.get(t.name) or enums.get(t.name)
            f = find(D['mod'], [t.name, e.f])
            if f is None: raise SystemExit(f'line {e.line}: method {e.f}')
            return s.userfn(f, [e.e] + e.args, e.line)
        f = e.f
        def arg(ty): return s.args(e.args, [ty])[0]
        if f in ('iter', 'into_iter', 'collect', 'to_vec', 'clone', 'iter_mut'):
            if f == 'iter_mut': raise SystemExit(f'line {e.line}: iter_mut')
            assert not e.args; return t, r
        if f == 'wrapping_add':
            g = arg(t); return t, lambda: app('prim', '.wrappingAdd', lst([r, g]))
        if f == 'unwrap_or_default':
            a = TVar('any'); unify(t, T('Option', seq(a)), e.line); return seq(a), lambda: app('prim', '.unwrapOrDefault', lst([r]))
        a = TVar('any'); unify(t, seq(a), e.line)
        if f == 'len': return tint('usize'), lambda: app('prim', '.len', lst([r]))
        if f == 'enumerate': return seq(T('tup', tint('usize'), a)), lambda: app('prim', '.enumerate', lst([r]))
        if f == 'rev': return t, lambda: app('prim', '.rev', lst([r]))
        if f == 'zip':
            b = TVar('any'); g = arg(seq(b)); return seq(T('tup', a, b)), lambda: app('prim', '.zip', lst([r, g]))
        if f == 'flatten':
            b = TVar('any'); unify(a, seq(b), e.line); return seq(b), lambda: app('prim', '.flatten', lst([r]))
        if f in ('chunks', 'chunks_exact'):
            g = arg(tint('usize')); n = 'chunks' if f == 'chunks' else 'chunksExact'
            return seq(t), lambda: app('prim', f'.{n}', lst([r, g]))
        if f == 'map':
            c = e.args[0]; assert c.k == 'closure'
            s.scopes.append({}); p = s.pat(c.p, a); b, g = s.ex(c.e); s.scopes.pop()
            return seq(b), lambda: app('map', r, p(), g)
        if not s.isplace(s.strip(e.e)): raise SystemExit(f'line {e.line}: {f} on a temporary')
        if f == 'push': g = arg(a); return UNIT, lambda: app('mutPrim', '.push', r, lst([g]))
        if f == 'clear': return UNIT, lambda: app('mutPrim', '.clear', r, '[]')
        if f == 'split_off': g = arg(tint('usize')); return t, lambda: app('mutPrim', '.splitOff', r, lst([g]))
        if f in ('copy_from_slice', 'clone_from_slice'):
            g = arg(t); return UNIT, lambda: app('mutPrim', '.copyFromSlice', r, lst([g]))
        if f == 'append':
            x = e.args[0]; assert x.k == 'ref' and x.mut; g = arg(t)
            if s.isplace(s.strip(x)): return UNIT, lambda: app('appendFrom', r, g)
            return UNIT, lambda: app('mutPrim', '.append', r, lst([g]))
        raise SystemExit(f'src/{s.mod}.rs:{e.line}: method {f}')

def find(mod, path):
    for f in fns:
        if f.mod == mod and ([f.name] if f.owner is None else [f.owner, f.name]) == path: return f
    return None
def lean_str(v): return '"' + v.replace('\\', '\\\\').replace('"', '\\"') + '"'
def fname(f): return f.mod + '_' + (f.owner + '_' if f.owner else '') + f.name
def intname(t):
    t = prune(t)
    return 'i32' if isinstance(t, TVar) else t.name
def elem(t):
    t = prune(t)
    if t.name == 'seq': return 'vec'
    assert t.name in ('u8', 'u32'), t
    return t.name
KEYWORDS = {'by', 'end', 'from', 'match', 'let', 'if', 'then', 'else', 'do', 'fun', 'in', 'at'}
ids = set()
def idn(x): return '.' + (f'«{x}»' if x in KEYWORDS else x)

# ---------------------------------------------------------------- emission
def lst(gs):
    return ('list', gs)
def lines(a):
    if callable(a): a = a()
    if isinstance(a, str): return [a]
    if isinstance(a, tuple):
        parts = [lines(g) for g in a[1]]
        if not parts: return ['[]']
        one = '[' + ', '.join(p[0] for p in parts) + ']'
        if all(len(p) == 1 for p in parts) and len(one) <= 96: return [one]
        if all(len(p) == 1 and len(p[0]) < 24 for p in parts):      # tables
            out, cur = [], ''
            for i, p in enumerate(parts):
                x = p[0] + (',' if i + 1 < len(parts) else '')
                if len(cur) + len(x) > 100: out.append(cur); cur = x
                else: cur = (cur + ' ' + x) if cur else x
            out.append(cur)
            out = [('[' if i == 0 else ' ') + o for i, o in enumerate(out)]
            out[-1] += ']'; return out
        out = []
        for i, p in enumerate(parts):
            for j, l in enumerate(p): out.append(('[' if i == 0 and j == 0 else ' ') + l)
            if i + 1 < len(parts): out[-1] += ','
        out[-1] += ']'
        return out
    return a
def app(head, *args):
    ps = []
    for a in args:
        l = list(lines(a))
        if not (l[0].startswith('[') or l[0].startswith('(') ) and ' ' in l[0] or len(l) > 1 and not l[0].startswith('['):
            l[0] = '(' + l[0]; l = [l[0]] + [' ' + x for x in l[1:]]; l[-1] += ')'
        ps.append(l)
    one = f'.{head}' + ''.join(' ' + p[0] for p in ps)
    if all(len(p) == 1 for p in ps) and len(one) <= 100: return [one]
    out = [f'.{head}']; attach = True
    for p in ps:
        if attach and len(p) == 1 and len(out) == 1 and len(out[0]) + len(p[0]) < 100: out[0] += ' ' + p[0]
        else: attach = False; out += ['  ' + x for x in p]
    return out

def source(mod, a, b):
    ls = TEXT[mod].split('\n')[a - 1:b]
    ls = [l for l in ls if l.strip() and not l.strip().startswith('//')]
    ind = min(len(l) - len(l.lstrip()) for l in ls)
    return '\n'.join(l[ind:] for l in ls)

TEXT = {m: open(f'{SRC}/{m}.rs').read() for m in MODULES}
MACROS = read_macros(open(f'{SRC}/common.rs').read())
for m in MODULES: items(m, TEXT[m])
for n, E in enums.items():
    for v, _ in E['vs']: ctor_names.append(f'{n}_{v}')

HEAD = '-- Generated by tools/rust2lean.py from /repo/src. Do not edit.\n'
gen = {m: [] for m in MODULES}
for c in consts:
    ctx = Ctx(c['mod'], None); t = ctx.ty(c['ty']); _, g = ctx.ex(c['e'], t)
    gen[c['mod']].append((c['lines'], f'const_{c["mod"]}_{c["name"]}', 'Expr', g, None))
for f in fns:
    ctx = Ctx(f.mod, f.owner); ctx.ret = ctx.ty(f.ret)
    for n, m, t in f.params: ctx.scopes[0][n] = ctx.ty(t); ids.add(n)
    _, g = ctx.ex(f.body, ctx.ret)
    gen[f.mod].append(((f.start, f.end), f'fn_{fname(f)}', 'FnDef', g, f))

os.makedirs(OUT + '/Gen', exist_ok=True)
rendered = {}
for m in MODULES:
    out = [HEAD + f'import Verif.Source.Syntax\n\n/-! The constants and functions of `src/{m}.rs`. -/\n\nnamespace Verif.Source.Gen\n\nset_option maxRecDepth 8192\n']
    for (a, b), name, kind, g, f in sorted(gen[m], key=lambda x: (x[0], x[1])):
        doc = f'/-- src/{m}.rs:{a}-{b}'
        src = source(m, a, b)
        assert '-/' not in src
        if len(src) < 6000 and src.count('\n') < 140: doc += '\n```\n' + src + '\n```'
        doc += ' -/\n'
        ls = lines(g)
        if f is None: out.append(doc + f'def {name} : Expr :=\n' + '\n'.join('  ' + l for l in ls) + '\n')
        else:
            ps = ', '.join(f'({idn(n)}, .{md})' for n, md, _ in f.params)
            out.append(doc + f'def {name} : FnDef where\n  params := [{ps}]\n  body :=\n' + '\n'.join('    ' + l for l in ls) + '\n')
    out.append('end Verif.Source.Gen\n')
    open(f'{OUT}/Gen/{TITLE[m]}.lean', 'w').write('\n'.join(out))

def enum(name, doc, cs):
    return f'/-- {doc} -/\ninductive {name} where\n' + '\n'.join('  | ' + c for c in cs) + '\nderiving DecidableEq, Repr\n'
q = lambda x: f'«{x}»' if x in KEYWORDS else x
names = HEAD + '\n/-! The names that occur in the crate. -/\n\nnamespace Verif.Source\n\n'
names += enum('Id', 'Local variables, parameters and fields.', [q(x) for x in sorted(ids)]) + '\n'
names += enum('Struct', 'Structures.', [s for s in structs]) + '\n'
names += enum('Ctor', 'Variants of enumerations.', ['Some', 'None', 'Ok', 'Err'] + ctor_names) + '\n'
names += enum('Const', '`const` items.', [f'{c["mod"]}_{c["name"]}' for c in consts]) + '\n'
names += enum('Fn', 'Functions and methods.', [fname(f) for f in fns]) + '\nend Verif.Source\n'
open(f'{OUT}/Names.lean', 'w').write(names)

tab = HEAD + ''.join(f'import Verif.Source.Gen.{TITLE[m]}\n' for m in MODULES)
tab += '\n/-! The crate as a program. -/\n\nnamespace Verif.Source\nopen Gen\n\n/-- The functions of the crate. -/\ndef crateFn : Fn → FnDef\n'
tab += ''.join(f'  | .{fname(f)} => fn_{fname(f)}\n' for f in fns)
tab += '\n/-- The constants of the crate. -/\ndef crateConst : Const → Expr\n'
tab += ''.join(f'  | .{c["mod"]}_{c["name"]} => const_{c["mod"]}_{c["name"]}\n' for c in consts)
tab += '\n/-- The crate. -/\ndef crate : Program := { fn := crateFn, const := crateConst }\n\nend Verif.Source\n'
open(f'{OUT}/Crate.lean', 'w').write(tab)
print(len(fns), 'functions', len(consts), 'constants')

sig = HEAD + 'import Verif.Source.Lemmas\n\n/-! What a call of each function evaluates. -/\n\nset_option linter.constructorNameAsVariable false\n\n'
sig += 'namespace Verif.Source\nopen Verif\n\nvariable (T : Target) (F d : Nat)\n\n'
for f in fns:
    n = fname(f)
    modes = ', '.join(f'.{md}' for _, md, _ in f.params)
    ps = ', '.join(f'({idn(x)}, .{md})' for x, md, _ in f.params)
    xs = ', '.join(idn(x) for x, _, _ in f.params)
    sig += f'@[src] theorem sig_{n} : (ctx T F d).sig .{n} = [{modes}] := (rfl)\n'
    sig += f'theorem call_{n} (args : List Val) :\n    call T crate F (d + 1) .{n} args =\n      finish [{ps}] (eval (ctx T F d) Gen.fn_{n}.body ([{xs}].zip args)) := (rfl)\n\n'
sig += 'end Verif.Source\n'
open(f'{OUT}/Sig.lean', 'w').write(sig)
