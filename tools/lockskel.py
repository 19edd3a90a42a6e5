#!/usr/bin/env python3
"""Writes lean/Verif/Api/LockTable.lean: the control flow of the C functions that take locks.

Reads the sources as text, in the default configuration (DEFINED below). Of each function it keeps branches,
loops, returns, the calls that take and release a lock, and the calls to other functions of the table;
everything else is dropped. Two functions are made up:
  core  what the core may do when called: post or cancel events, and call the functions of src/api whose address
        was given to it, any number of times in any order. Every call of an nc_ or nm_tcp_ function (except PURE below:
        two use no state, two return a name which the code says is not synchronised), and of an event's callback, is a touch followed by a call of core. So a
        touch stands for the use of state of the core. Uses of the list of listeners are touches too.
  events  posting or cancelling events, which has a lock of its own: the np_event_queue functions.
  app   what the application may do: call the functions of the public headers, any number of times in any order.
        The callback of a future is either app or a callback of the IAM module.
nm_iam_coap_handler_async_request_end tests handler->locked, which is true while a request handler runs and holds
the IAM lock: calls of it in a request handler are dropped (they set a flag), elsewhere the flag is false.
Usage: lockskel.py /repo > lean/Verif/Api/LockTable.lean
"""
import re, sys, glob, os

REPO = sys.argv[1]
FILES = sorted(glob.glob(REPO + '/src/api/nabto_device*.c')) + \
    [REPO + '/src/modules/event_queue/thread_event_queue.c'] + \
    sorted(glob.glob(REPO + '/src/modules/iam/*.c') + glob.glob(REPO + '/src/modules/iam/coap_handler/*.c'))
FILES = [f for f in FILES if not f.endswith('nabto_device_error.c')]  # a macro table


def lock_name(expr, file):
    e = expr.replace(' ', '')
    if e.endswith('eventMutex') or e.endswith('coreMutex'):
        return 'event'
    if e.endswith('queueMutex'):
        return 'queue'
    if e == 'fut->mutex':
        return 'future'
    if e == 'queue->mutex' and 'future_queue' in file:
        return 'futures'
    if e == 'iam->mutex':
        return 'iam'
    raise Exception('unknown lock ' + e + ' in ' + file)


def clean(src):
    """Remove comments, strings and preprocessor lines; of a conditional keep the first branch."""
    def blank(m):
        return re.sub(r'[^\n]', ' ', m.group(0))
    src = re.sub(r'/\*.*?\*/', blank, src, flags=re.S)
    src = re.sub(r'//[^\n]*', blank, src)
    src = re.sub(r'"(\\.|[^"\\])*"', lambda m: '0' + ' ' * (len(m.group(0)) - 1), src)
    src = re.sub(r"'(\\.|[^'\\])'", lambda m: '0' + ' ' * (len(m.group(0)) - 1), src)
    out, stack, cont = [], [], False
    for line in src.split('\n'):
        t = line.strip()
        if cont:
            cont = t.endswith('\\')
            out.append('')
            continue
        if t.startswith('#'):
            d = t[1:].strip()
            if d.startswith('ifdef') or d.startswith('ifndef'):
                v = d.split()[1] in DEFINED
                v = v if d.startswith('ifdef') else not v
                stack.append((v, v))
            elif d.startswith('if'):
                v = condition(d[2:])
                stack.append((v, v))
            elif d.startswith('elif'):
                v = not stack[-1][1] and condition(d[4:])
                stack[-1] = (v, v or stack[-1][1])
            elif d.startswith('else'):
                stack[-1] = (not stack[-1][1], True)
            elif d.startswith('endif'):
                stack.pop()
            cont = t.endswith('\\')
            out.append('')
            continue
        out.append(line if all(a for a, _ in stack) else '')
    return '\n'.join(out)


DEFINED = {'NABTO_DEVICE_FUTURE_QUEUE', 'NABTO_DEVICE_MBEDTLS', 'NABTO_DEVICE_PASSWORD_AUTHENTICATION'}


def condition(e):
    e = re.sub(r'defined\s*\(\s*(\w+)\s*\)', lambda m: str(m.group(1) in DEFINED), e)
    return eval(e.replace('&&', ' and ').replace('||', ' or ').replace('!', ' not '), {}, {})


TOK = re.compile(r'[A-Za-z_]\w*|\d[\w.]*|->|&&|\|\||[^\s]')


def tokens(text):
    line, pos, res = 1, 0, []
    for m in TOK.finditer(text):
        line += text.count('\n', pos, m.start())
        pos = m.start()
        res.append((m.group(0), line))
    return res


def functions(toks):
    """Top level definitions: name, first line, last line, body tokens."""
    i, n = 0, len(toks)
    res = []
    start = 0
    while i < n:
        t = toks[i][0]
        if t == ';':
            i += 1
            start = i
        elif t == '{':
            depth, j = 0, i
            while True:
                if toks[j][0] == '{':
                    depth += 1
                elif toks[j][0] == '}':
                    depth -= 1
                    if depth == 0:
                        break
                j += 1
            head = [x[0] for x in toks[start:i]]
            if head and head[-1] == ')' and '=' not in head:
                k, d = len(head) - 1, 0
                while True:
                    if head[k] == ')':
                        d += 1
                    elif head[k] == '(':
                        d -= 1
                        if d == 0:
                            break
                    k -= 1
                name = head[k - 1]
                res.append((name, toks[start + k - 1][1], toks[j][1], toks[i + 1:j]))
            i = j + 1
            start = i
        else:
            i += 1
    return res


class Parser:
    def __init__(self, toks, file, resolve, func):
        self.func = func
        self.t = toks
        self.i = 0
        self.file = file
        self.resolve = resolve

    def peek(self):
        return self.t[self.i][0] if self.i < len(self.t) else None

    def next(self):
        x = self.t[self.i][0]
        self.i += 1
        return x

    def paren(self):
        assert self.next() == '('
        d, res = 1, []
        while True:
            x = self.next()
            if x == '(':
                d += 1
            elif x == ')':
                d -= 1
                if d == 0:
                    return res
            res.append(x)

    def expr(self, toks):
        """The lock operations and calls in an expression, in textual order."""
        res = []
        k = 0
        while k < len(toks):
            if k + 1 < len(toks) and toks[k + 1] == '(' and re.match(r'[A-Za-z_]', toks[k]):
                d, j = 0, k + 1
                while True:
                    if toks[j] == '(':
                        d += 1
                    elif toks[j] == ')':
                        d -= 1
                        if d == 0:
                            break
                    j += 1
                arg = toks[k + 2:j]
                name = toks[k]
                if name == 'nabto_device_threads_mutex_lock':
                    res.append(('lock', lock_name(''.join(arg), self.file)))
                elif name == 'nabto_device_threads_mutex_unlock':
                    res.append(('unlock', lock_name(''.join(arg), self.file)))
                elif name == 'nm_iam_lock':
                    res.append(('lock', 'iam'))
                elif name == 'nm_iam_unlock':
                    res.append(('unlock', 'iam'))
                else:
                    res += self.expr(arg)
                    member = k > 0 and toks[k - 1] in ('->', '.')
                    f = None if member else self.resolve(name, self.file)
                    if name == 'nm_iam_coap_handler_async_request_end' and self.func == 'handle_request':
                        pass
                    elif f is not None:
                        res.append(('call', f))
                    elif member and name == 'cb' and self.file.endswith('thread_event_queue.c'):
                        res += [('touch',), ('call', CORE)]
                    elif member and name == 'requestHandler':
                        res.append(('handler',))
                    elif name == 'cb' and self.file.endswith('nabto_device_future.c'):
                        res.append(('callback',))
                    elif name == 'cb' and self.file.endswith('nm_iam_internal.c'):
                        res.append(('call', APP))
                    elif name in PURE:
                        pass
                    elif name.startswith('np_event_queue_'):
                        res.append(('call', EVENTS))
                    elif name.startswith('nc_') or name.startswith('nm_tcp_'):
                        res += [('touch',), ('call', CORE)]
                    elif name.startswith('nn_llist_') and self.file.endswith('nabto_device_listener.c') and \
                            ('listeners' in arg or 'listenersItem' in arg or self.func == STOP_ALL):
                        res.append(('touch',))
                k = j + 1
            else:
                k += 1
        return res

    def until(self, stop):
        res, d = [], 0
        while True:
            x = self.next()
            if x in '([{':
                d += 1
            elif x in ')]}':
                d -= 1
            if x == stop and d == 0:
                return res
            res.append(x)

    def block(self):
        """Statements up to a closing brace, which is consumed, or the end."""
        res = []
        while self.i < len(self.t):
            if self.peek() == '}':
                self.next()
                break
            res += self.stmt()
        return res

    def stmt(self):
        x = self.peek()
        if x == '{':
            self.next()
            return self.block()
        if x == ';':
            self.next()
            return []
        if x == 'if':
            self.next()
            cond = self.paren()
            c = self.expr(cond)
            a = self.stmt()
            b = []
            if self.peek() == 'else':
                self.next()
                b = self.stmt()
            if cond == ['handler', '->', 'locked']:
                return b
            return c + [('ite', a, b)]
        if x == 'while' or 'FOREACH' in x:
            self.next()
            cond = self.paren()
            c = self.expr(cond)
            b = self.stmt()
            if cond in (['true'], ['1']):
                return [('forever', b)]
            return [('loop', c + [('ite', b, [('brk',)])])] if c else [('loop', b)]
        if x == 'for':
            self.next()
            h = self.paren()
            parts, d, cur = [], 0, []
            for y in h:
                if y == '(':
                    d += 1
                if y == ')':
                    d -= 1
                if y == ';' and d == 0:
                    parts.append(cur)
                    cur = []
                else:
                    cur.append(y)
            parts.append(cur)
            b = self.stmt()
            a, c, e = [self.expr(p) for p in parts]
            assert not c and not e
            return a + [('loop', b)]
        if x == 'do':
            self.next()
            b = self.stmt()
            assert self.next() == 'while'
            c = self.expr(self.paren())
            assert self.next() == ';'
            return b + c + [('loop', b + c)]
        if x == 'switch':
            self.next()
            c = self.expr(self.paren())
            assert self.next() == '{'
            arms, cur, default = [], None, False
            while self.peek() != '}':
                y = self.peek()
                if y == 'case':
                    self.until(':')
                    cur = []
                    arms.append(cur)
                elif y == 'default':
                    self.next()
                    self.next()
                    default = True
                    cur = []
                    arms.append(cur)
                else:
                    cur += self.stmt()
            self.next()
            # fall through: an arm goes on with the next one
            tails = [sum(arms[k:], []) for k in range(len(arms))]
            res = [] if not default else tails.pop()
            for tl in reversed(tails):
                res = [('ite', tl, res)]
            return c + [('block', res)]
        if x == 'return':
            self.next()
            return self.expr(self.until(';')) + [('ret',)]
        if x == 'break':
            self.until(';')
            return [('brk',)]
        if x == 'continue':
            self.until(';')
            return [('cont',)]
        if x in ('goto', 'case', 'default'):
            raise Exception(x)
        return self.expr(self.until(';'))


def simplify(ss):
    """Drop what has no lock operation, call or jump."""
    res = []
    for s in ss:
        if s[0] == 'ite':
            a, b = simplify(s[1]), simplify(s[2])
            if a or b:
                res.append(('ite', a, b))
        elif s[0] in ('loop', 'block', 'forever'):
            a = simplify(s[1])
            if a or s[0] == 'forever':
                res.append((s[0], a))
        else:
            res.append(s)
            if s[0] in ('ret', 'brk', 'cont'):
                break
    return res


def calls(ss):
    r = set()
    for s in ss:
        if s[0] == 'call':
            r.add(s[1])
        if s[0] == 'any':
            r |= set(s[1])
        for x in s[1:]:
            if isinstance(x, list):
                r |= calls(x)
    return r


def locks(ss):
    return any(s[0] in ('lock', 'unlock', 'touch') or any(locks(x) for x in s[1:] if isinstance(x, list)) for s in ss)


def restrict(ss, keep):
    res = []
    for s in ss:
        if s[0] == 'call' and s[1] not in keep:
            continue
        if s[0] == 'any':
            res.append(('any', tuple(f for f in s[1] if f in keep)))
            continue
        res.append((s[0],) + tuple(restrict(x, keep) if isinstance(x, list) else x for x in s[1:]))
    return res


def lean(ss, num):
    if not ss:
        return '.skip'
    if len(ss) > 1:
        return '(.seq ' + lean(ss[:1], num) + ' ' + lean(ss[1:], num) + ')'
    s = ss[0]
    if s[0] in ('lock', 'unlock'):
        return '(.%s .%s)' % s
    if s[0] == 'call':
        return '(.call %d)' % num[s[1]]
    if s[0] == 'any':
        return '(.anyOf [%s])' % ', '.join(str(num[f]) for f in s[1])
    if s[0] == 'ite':
        return '(.ite %s %s)' % (lean(s[1], num), lean(s[2], num))
    if s[0] in ('loop', 'block', 'forever'):
        return '(.%s %s)' % (s[0], lean(s[1], num))
    return '.' + s[0]


CORE, APP, EVENTS = ('', 'core'), ('', 'app'), ('', 'events')
PURE = ['nc_version', 'nc_coap_error_to_core', 'nc_device_get_app_name', 'nc_device_get_app_version']
STOP_ALL = 'nabto_device_listener_stop_all'
# these leave a lock held on some path, so the application of the model does not call them
BAD = ['nabto_device_stream_init_listener', 'nabto_device_stream_init_listener_ephemeral',
       'nabto_device_virtual_stream_read_all']
# these touch the core, or the list of listeners, without the lock
UNGUARDED = ['nabto_device_new', 'nabto_device_free', 'nabto_device_stop', 'nabto_device_listener_new', 'nm_iam_init',
             'nabto_device_ice_servers_request_new']

defs = {}
addr = set()
for f in FILES:
    toks = tokens(clean(open(f).read()))
    for name, a, b, body in functions(toks):
        defs[(f, name)] = (a, b, body)
for f in FILES:
    toks = tokens(clean(open(f).read()))
    for name, a, b, body in functions(toks):
        for k, (t, _) in enumerate(body):
            if (f, t) in defs and body[k + 1][0] != '(':
                addr.add((f, t))


def resolve(name, file):
    if (file, name) in defs:
        return (file, name)
    c = [k for k in defs if k[1] == name]
    return c[0] if len(c) == 1 else None


public = ''
for h in sorted(glob.glob(REPO + '/include/nabto/*.h')) + [REPO + '/src/modules/iam/nm_iam.h']:
    public += clean(open(h).read())
public = set(re.findall(r'(\w+)\s*\(', public))

skel = {}
for k, (a, b, body) in defs.items():
    if k[1] not in ('nm_iam_lock', 'nm_iam_unlock'):
        skel[k] = Parser(body, k[0], resolve, k[1]).block()


def choice(fs):
    return [('any', tuple(sorted(fs)))]


def subst(ss, what):
    res = []
    for s in ss:
        if s[0] in what:
            res += what[s[0]]
        else:
            res.append((s[0],) + tuple(subst(x, what) if isinstance(x, list) else x for x in s[1:]))
    return res


THREADS = ['execution_thread', 'queue_thread']
handlers = [k for k in addr if '/coap_handler/' in k[0] and k[1] == 'handle_request']
callbacks = [k for k in addr if '/iam/' in k[0] and k[1] in ('request_callback', 'msg_sent_callback')]
events = [k for k in defs if k[0].endswith('thread_event_queue.c') and k[1] in ('post_event', 'create_event',
          'post_event_maybe_double', 'post_timed_event', 'cancel_event', 'destroy_event')]
core = [k for k in addr if '/src/api/' in k[0] and k[1] not in THREADS] + [EVENTS]
what = {'handler': choice(handlers), 'callback': choice(callbacks + [APP])}
for k in skel:
    skel[k] = subst(skel[k], what)
skel[CORE] = [('loop', choice(core))]
skel[EVENTS] = [('loop', choice(events))]
skel[APP] = [('loop', choice([k for k in defs if k[1] in public and k[1] not in BAD]))]
guarded = choice([f for f in skel[APP][0][1][0][1] if f[1] not in UNGUARDED])
defs[CORE] = defs[APP] = defs[EVENTS] = (0, 0, None)

keep = {k for k in skel if locks(skel[k])}
while True:
    more = {k for k in skel if k not in keep and calls(skel[k]) & keep}
    if not more:
        break
    keep |= more
order = sorted(keep, key=lambda k: (FILES.index(k[0]) if k[0] else -1, defs[k][0], k[1]))
num = {k: i for i, k in enumerate(order)}

# which functions are reached with which locks held
body = {k: simplify(restrict(skel[k], keep)) for k in order}
RANK = ['iam', 'event', 'future', 'futures', 'queue']
def outs(ss, h):
    """Possible ends of a list of statements: pairs of a way to end and the locks held then."""
    cur, res = {h}, set()
    for s in ss:
        nxt = set()
        for x in cur:
            for o, y in out1(s, x):
                if o == 'norm':
                    nxt.add(y)
                else:
                    res.add((o, y))
        cur = nxt
    return res | {('norm', x) for x in cur}


def out1(s, h):
    if s[0] == 'lock':
        return {('norm', (s[1],) + h)}
    if s[0] == 'unlock':
        return {('norm', tuple(x for x in h if x != s[1]))}
    if s[0] == 'call':
        todo.append((s[1], h))
        return {('norm', h)}
    if s[0] == 'touch':
        return {('norm', h)}
    if s[0] == 'any':
        todo.extend((f, h) for f in s[1])
        return {('norm', h)}
    if s[0] == 'ite':
        return outs(s[1], h) | outs(s[2], h)
    if s[0] in ('loop', 'forever', 'block'):
        r = outs(s[1], h)
        b = {('norm', y) for o, y in r if o == 'brk'} | {(o, y) for o, y in r if o == 'ret'}
        if s[0] == 'block':
            return b | {(o, y) for o, y in r if o in ('norm', 'cont')}
        return b | ({('norm', h)} if s[0] == 'loop' else set())
    return {(s[0], h)}


def contexts(starts):
    reach = {}
    global todo
    todo = [(k, ()) for k in order if k[1] in THREADS or k in (APP,)] + [(k, ()) for k in starts]
    while todo:
        k, h = todo.pop()
        if h not in reach.setdefault(k, []):
            reach[k].append(h)
            outs(body[k], h)
    return '[' + ', '.join(
        '[' + ', '.join('[' + ', '.join('.' + x for x in h) + ']' for h in sorted(reach.get(k, []))) + ']'
        for k in order) + ']'


print('''import Verif.Api.Lock

/-!
# The control flow of the functions that take locks

Generated from the C sources by `tools/lockskel.py`, which see for what is kept of a function: branches, loops,
returns, locking, unlocking and the calls to other functions in the table. Both branches of every condition are
possible. `app`, `core` and `events` stand for the application, the core and the event queue.
-/

namespace Verif.Api.Lock
''')
for k in order:
    src = '%s:%d-%d' % (os.path.relpath(k[0], REPO), defs[k][0], defs[k][1]) if k[0] else ''
    print('/-- `%s`%s. -/' % (k[1], ', `' + src + '`' if src else ', made up, see above'))
    print('def f%d : Fn := ⟨"%s", %s,\n  %s⟩\n' % (num[k], k[1], str(k[1] in public).lower(), lean(body[k], num)))
print('/-- All functions that take a lock, directly or by a call. -/')
print('def table : List Fn := [' + ', '.join('f%d' % i for i in range(len(order))) + ']')
print()
print('/-- The locks with which each function is called, starting from threads that hold none. Not trusted. -/')
print('def contexts : List (List (List Mutex)) := ' +
      contexts([k for k in order if k[1] in public and k[1] not in BAD]))
body[APP] = [('loop', [('any', tuple(f for f in guarded[0][1] if f in keep))])]
print()
print('/-- An application which does not call the functions that touch state without the lock. -/')
print('def guardedApp : Fn := ⟨"app", false,\n  %s⟩\n' % lean(body[APP], num))
print('/-- As `contexts`, for `guardedApp`. Not trusted. -/')
print('def guardedContexts : List (List (List Mutex)) := ' +
      contexts([k for k in order if k[1] in public and k[1] not in BAD + UNGUARDED or
                k[1] == 'thread_event_queue_do_one']))
print('\nend Verif.Api.Lock')
