"""Helpers that turn straight-line SIMD code of /repo (Rust or C) into Lean terms.
Used once to write the bodies in lean/Verif/Model; the Lean files are the source of truth."""
import re

def toks(s):
    return re.findall(r'0x[0-9A-Fa-f]+|\w+!?|[()\[\],*+&=]|\S', s)

class P:
    def __init__(self, s): self.t = toks(s); self.i = 0
    def peek(self): return self.t[self.i] if self.i < len(self.t) else None
    def next(self): self.i += 1; return self.t[self.i-1]
    def expr(self):
        e = self.atom()
        while self.peek() == '+':
            self.next(); e = f"({e} + {self.atom()})"
        return e
    def atom(self):
        x = self.next()
        if x in ('*', '&'): return self.atom()
        if x == '(':
            e = self.expr(); assert self.next() == ')'; return e
        name = x
        if self.peek() == '(':
            self.next(); args = []
            while self.peek() != ')':
                args.append(self.expr())
                if self.peek() == ',': self.next()
            self.next()
            f = name.rstrip('!').lstrip('_')
            if f in ('mm_castps_si128', 'mm_castsi128_ps'): return args[0]
            return '(' + ' '.join([f] + args) + ')'
        while self.peek() == '[':
            self.next(); e = self.expr()
            if self.peek() == 'as': self.next(); self.next()
            assert self.next() == ']', self.t[self.i-3:self.i+3]
            name = f"{name}[{e}]"
        return name
def tr(s):
    p = P(s); e = p.expr()
    if e.startswith('(') and e.endswith(')'): e = e[1:-1]
    return e
